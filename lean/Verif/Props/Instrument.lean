import Verif.Spec.Instrument
import Verif.Lemmas.INote
/-!
C29, C30, C31, C71, C74, C75, C76: instruments and the tracks that play them.
-/
namespace BK

theorem filter_swap (l : List Nat) (p q : Nat → Bool) :
    (l.filter p).filter q = (l.filter q).filter p := by
  rw [List.filter_filter, List.filter_filter]
  congr 1
  funext a
  exact Bool.and_comm _ _

theorem filter_only {l : List Nat} (h : l.Nodup) {y : Nat} (hy : y ∈ l) : l.filter (· = y) = [y] := by
  induction l with
  | nil => simp at hy
  | cons x l ih =>
    obtain ⟨h1, h2⟩ := List.nodup_cons.1 h
    by_cases e : x = y
    · subst e
      rw [List.filter_cons_of_pos (by simp), List.filter_eq_nil_iff.2]
      intro z hz
      simp only [decide_eq_true_eq]
      intro e; subst e; exact h1 hz
    · rw [List.filter_cons_of_neg (by simpa using e)]
      refine ih h2 ?_
      rcases List.mem_cons.1 hy with hy | hy
      · exact absurd hy.symm e
      · exact hy

/-! ### C74: memory safety -/

/-- C74: whatever instruments are set up, played, changed and disposed, the only thing that can go
wrong is an arithmetic overflow in an envelope: no use after free, no double free, no access out
of bounds, no endless loop.  What is missing: overflow itself (see `C24_envelope_overflow`,
`C71_refuted`; excluded by `C74_usual`). -/
theorem C74_safe_partial (fuel : Nat) (ops : List InstrOp) (hs : ∀ op ∈ ops, op.Short)
    (hf : ops.length ≤ fuel) (e : Fault) (h : IWorld.run fuel {} ops = .error e) : e = .overflow := by
  have := IWorld.run_inv (B := False) fuel ops {} (fun _ => []) 0 (IWorld.Inv.init False) hs False.elim
    (by simp) (by omega)
  rw [h] at this
  exact this.1

/-- C74: nothing at all goes wrong with usual envelopes and fitting duty cycles. -/
theorem C74_usual (fuel : Nat) (ops : List InstrOp) (hs : ∀ op ∈ ops, op.Short)
    (hf : ops.length ≤ fuel) (hu : IWorld.UsualRun fuel {} ops) : ∃ w, IWorld.run fuel {} ops = .ok w := by
  obtain ⟨w, h, _⟩ := (IWorld.run_inv (B := True) fuel ops {} (fun _ => []) 0 (IWorld.Inv.init True) hs
    (fun _ => hu) (by simp) (by omega)).get trivial
  exact ⟨w, h⟩

/-- C74: no memory is lost: every sequence in memory is in exactly one slot of one instrument. -/
theorem C74_noleak (fuel : Nat) (w : IWorld) (hw : w.Reach fuel) (id : Nat) (q : Sequence)
    (h : w.heap id = some q) :
    ∃ i k, k < 4 ∧ (w.instrs i).sequences k = some id ∧
      ∀ j l, (w.instrs j).sequences l = some id → j = i ∧ l = k := by
  obtain ⟨A, hi, _⟩ := hw.inv
  obtain ⟨i, k, e⟩ := hi.noLeak id (by rw [h]; simp)
  exact ⟨i, k, (hi.live i k id e).1, e, fun j l e2 => hi.inj j l i k id e2 e⟩

/-- C74: pointers never dangle: the sequences of a track are those of its instrument, and exist. -/
theorem C74_live (fuel : Nat) (w : IWorld) (hw : w.Reach fuel) (x k : Nat) (hk : k < 4) :
    (w.links.owner x = none → ((w.states x).slots k).seq = none) ∧
    (∀ i, w.links.owner x = some i → ((w.states x).slots k).seq = (w.instrs i).sequences k) ∧
    (∀ id, ((w.states x).slots k).seq = some id → w.heap id ≠ none) := by
  obtain ⟨A, hi, _⟩ := hw.inv
  refine ⟨fun h => (hi.idle x h k hk).1, fun i h => (hi.att x i h).has.pt k hk, fun id h => ?_⟩
  obtain ⟨q, hq⟩ := (hi.slots x).1 k id hk h
  rw [hq]; simp

/-- Some calls for the examples: a volume sequence and a panning envelope, played by two tracks. -/
def sampleOps : List InstrOp :=
  [.setSequence 0 0 (.values [3, 2, 1] 1 1), .setSequence 0 1 (.points [⟨2, 100⟩, ⟨3, 0⟩] 1 1),
   .setInstrument 0 (some 0) true 2, .setInstrument 1 (some 0) false 3, .tick 0 true, .release 0, .tick 0 true]

example : (∀ op ∈ sampleOps, op.Short) ∧ sampleOps.length ≤ 10 := by
  refine ⟨?_, by decide⟩
  intro op h
  simp only [sampleOps, List.mem_cons, List.not_mem_nil, or_false] at h
  rcases h with rfl | rfl | rfl | rfl | rfl | rfl | rfl
  rotate_left 2
  iterate 5 trivial
  · exact ⟨by decide, by unfold InI32; omega, by unfold InI32; omega⟩
  · refine ⟨by decide, by unfold InI32; omega, by unfold InI32; omega, ?_⟩
    intro p hp
    simp only [List.mem_cons, List.not_mem_nil, or_false] at hp
    rcases hp with rfl | rfl <;> (unfold InU32; simp)

example : (IWorld.run 10 {} (sampleOps ++ [.tick 0 true, .tick 0 true, .tick 0 true])).map (·.log)
    = .ok [(1, .mute), (0, .mute)] := by decide +kernel

example : ((IWorld.run 10 {} sampleOps).map fun w => (w.heap 1).isSome) = .ok true := by decide +kernel

/-! ### C29: rejected sequences -/

/-- C29: a refused sequence changes nothing: neither instruments nor tracks nor memory, and no
track is told anything. -/
theorem C29_unchanged (fuel i slot : Nat) (new : NewSeq) (w w' : IWorld)
    (h : w.setSequence fuel i slot new = .ok (false, w')) : w' = w := by
  unfold IWorld.setSequence at h
  split at h
  · obtain ⟨r, h1, h2⟩ := bind_ok_iff.1 h
    cases r with
    | none =>
      simp only [pure_eq_ok, Except.ok.injEq, Prod.mk.injEq] at h2
      exact h2.2.symm
    | some q =>
      obtain ⟨w1, h3, h4⟩ := bind_ok_iff.1 h2
      simp [pure_eq_ok] at h4
  · simp only [pure_eq_ok, Except.ok.injEq, Prod.mk.injEq] at h
    exact h.2.symm

theorem sumSteps_eq (ps : List EnvPoint) (hp : ∀ p ∈ ps, InU32 p.steps) :
    ∀ acc, InI32 acc → (sumSteps ps acc = 0 ↔ (acc + (ps.map (·.steps)).sum) % 4294967296 = 0) ∧
      InI32 (sumSteps ps acc) := by
  induction ps with
  | nil => intro acc h; refine ⟨?_, h⟩; unfold InI32 at h; simp only [sumSteps, List.map_nil, List.sum_nil]; omega
  | cons p ps ih =>
    intro acc h
    have h1 := hp p (by simp)
    have hw : InI32 (wrapI32 (acc + p.steps)) := by unfold wrapI32 InI32; omega
    obtain ⟨h2, h3⟩ := ih (fun q hq => hp q (by simp [hq])) _ hw
    refine ⟨?_, h3⟩
    show sumSteps ps (wrapI32 (acc + p.steps)) = 0 ↔ _
    rw [h2]
    simp only [List.map_cons, List.sum_cons]
    generalize (ps.map (·.steps)).sum = S
    unfold wrapI32
    omega

/-- C29: exactly invalid slots and envelopes whose held part takes no time are refused. -/
theorem C29_which (fuel i slot : Nat) (new : NewSeq) (hs : new.Short) (w w' : IWorld) (b : Bool)
    (h : w.setSequence fuel i slot new = .ok (b, w')) :
    b = false ↔ 4 ≤ slot ∨ new.Timeless := by
  have hcr : ∀ r, new.create = .ok r → (r = none ↔ new.Timeless) := by
    intro r hr
    cases new with
    | nothing => cases hr; simp [NewSeq.Timeless]
    | values vals so sl =>
      obtain ⟨h1, h2, h3⟩ := hs
      unfold NewSeq.create at hr
      dsimp only at hr
      rw [SimpleSeq.create_eq h1 h2 h3] at hr
      split at hr <;> cases hr <;> simp [NewSeq.Timeless]
    | points ps so sl =>
      obtain ⟨h1, h2, h3, h4⟩ := hs
      unfold NewSeq.create at hr
      dsimp only at hr
      rw [EnvSeq.create_eq h1 h2 h3] at hr
      unfold NewSeq.Timeless
      dsimp only
      by_cases he : ps = []
      · rw [if_pos he] at hr
        cases hr
        subst he
        simp
      rw [if_neg he] at hr
      have hsb : sustainBegin ps.length so ≤ ps.length := by
        have := sustain_le ps.length so sl; omega
      have hsum := (sumSteps_eq ((ps.drop (sustainBegin ps.length so)).take (sustainSize ps.length so sl))
        (fun p hp => h4 p (List.mem_of_mem_drop (List.mem_of_mem_take hp))) 0 (by unfold InI32; omega)).1
      rw [Int.zero_add] at hsum
      rw [← hsum]
      unfold envCheck at hr
      simp only [Int.toNat_natCast, Nat.cast_inj] at hr
      by_cases hb : sustainBegin ps.length so = ps.length
      · rw [if_pos hb] at hr
        simp only [if_true, bind_assoc] at hr
        obtain ⟨fs, _, h6⟩ := bind_ok_iff.1 hr
        simp only [pure_eq_ok, ok_bind, Option.map_some, Except.ok.injEq] at h6
        rw [← h6]
        simp [hb]
      · rw [if_neg hb] at hr
        have hlt : sustainBegin ps.length so < ps.length := by omega
        by_cases hz : sumSteps ((ps.drop (sustainBegin ps.length so)).take (sustainSize ps.length so sl)) 0 = 0
        · rw [if_neg (by simp [hz])] at hr
          cases hr
          simp [hz, hlt]
        · rw [if_pos (by simp [hz])] at hr
          simp only [bind_assoc] at hr
          obtain ⟨fs, _, h6⟩ := bind_ok_iff.1 hr
          simp only [pure_eq_ok, ok_bind, Option.map_some, Except.ok.injEq] at h6
          rw [← h6]
          simp [hz]
  unfold IWorld.setSequence at h
  split at h
  · rename_i hlt
    obtain ⟨r, h1, h2⟩ := bind_ok_iff.1 h
    have := hcr r h1
    cases r with
    | none =>
      simp only [pure_eq_ok, Except.ok.injEq, Prod.mk.injEq] at h2
      rw [← h2.1]
      simp [this.1 rfl]
    | some q =>
      obtain ⟨w1, h3, h4⟩ := bind_ok_iff.1 h2
      simp only [pure_eq_ok, Except.ok.injEq, Prod.mk.injEq] at h4
      rw [← h4.1]
      have hn : ¬ new.Timeless := fun ht => by simpa using this.2 ht
      simp [hn]; omega
  · rename_i hge
    simp only [pure_eq_ok, Except.ok.injEq, Prod.mk.injEq] at h
    rw [← h.1]
    simp; omega

/-- Refused: two points without steps to be repeated. -/
example : (NewSeq.points [⟨5, 7⟩, ⟨0, 1⟩, ⟨0, 2⟩] 1 2).Timeless := by
  unfold NewSeq.Timeless; decide

/-- Accepted: the same, repeated from the first point on. -/
example : ¬ (NewSeq.points [⟨5, 7⟩, ⟨0, 1⟩, ⟨0, 2⟩] 0 2).Timeless := by
  unfold NewSeq.Timeless; decide

/-! ### C75: accepted sequences -/

/-- C75: setting a sequence replaces this sequence of this instrument and nothing else.  Every
track using the instrument falls silent (and is told so, unless it already was) and is told to
reset; all other tracks, instruments and sequences are as before. -/
theorem C75_replaced (fuel i slot : Nat) (new : NewSeq) (hs : new.Short) (w w' : IWorld)
    (hw : w.Reach fuel) (h : w.setSequence fuel i slot new = .ok (true, w')) :
    (∃ q, new.create = .ok (some q) ∧
      match q with
      | none => (w'.instrs i).sequences slot = none
      | some q => ∃ id, (w'.instrs i).sequences slot = some id ∧ w'.heap id = some q ∧ w.heap id = none) ∧
    (∀ k, k ≠ slot → (w'.instrs i).sequences k = (w.instrs i).sequences k) ∧
    (∀ j, j ≠ i → w'.instrs j = w.instrs j) ∧
    (∀ j k id, (j, k) ≠ (i, slot) → (w.instrs j).sequences k = some id → w'.heap id = w.heap id) ∧
    (∀ id, (w.instrs i).sequences slot = some id → w'.heap id = none) ∧
    w'.links = w.links ∧
    (∀ y, w.links.owner y ≠ some i → w'.states y = w.states y ∧ w'.told y = w.told y) ∧
    (∀ y, w.links.owner y = some i → (w'.states y).phase = .mute ∧
      w'.told y = w.told y ++ (if (w.states y).phase = .mute then [] else [.mute]) ++ [.reset]) := by
  obtain ⟨A, hi, hl⟩ := hw.inv
  unfold IWorld.setSequence at h
  split at h
  · rename_i hlt
    obtain ⟨r, h1, h2⟩ := bind_ok_iff.1 h
    have hc := NewSeq.create_inv (B := False) hs False.elim
    rw [h1] at hc
    cases r with
    | none => simp [pure_eq_ok] at h2
    | some q =>
      obtain ⟨w1, h3, h4⟩ := bind_ok_iff.1 h2
      simp only [pure_eq_ok, Except.ok.injEq, Prod.mk.injEq, true_and] at h4
      subst h4
      have hr := IWorld.replace_inv hi i slot fuel q hlt (fun q' e => hc q' (by rw [e])) (hl i)
      rw [h3] at hr
      obtain ⟨-, h5⟩ := hr
      have told : ∀ y, w1.told y = w.told y ++
          (((A i).filter fun y => (w.states y).phase ≠ .mute).filter (· = y)).map (fun _ => InstrEvent.mute) ++
          ((A i).filter (· = y)).map (fun _ => InstrEvent.reset) := by
        intro y
        unfold IWorld.told
        rw [h5.log, List.filter_append, List.filter_append, List.filter_map, List.filter_map,
          List.map_append, List.map_append, List.map_map, List.map_map]
        rfl
      refine ⟨⟨q, h1, h5.new⟩, h5.seqs, h5.others, h5.kept, h5.freed, h5.links, ?_, ?_⟩
      · intro y hy
        have hyA : y ∉ A i := fun hm => hy ((hi.repr.owner y i).2 hm)
        refine ⟨h5.states y hyA, ?_⟩
        rw [told y]
        have e1 : (A i).filter (· = y) = [] := by
          rw [List.filter_eq_nil_iff]
          intro z hz
          simp only [decide_eq_true_eq]
          intro e; subst e; exact hyA hz
        have e2 : ((A i).filter fun y => (w.states y).phase ≠ .mute).filter (· = y) = [] := by
          rw [filter_swap, e1]; rfl
        rw [e1, e2]; simp
      · intro y hy
        have hyA := (hi.repr.owner y i).1 hy
        refine ⟨h5.muted y hyA, ?_⟩
        rw [told y]
        have e1 : (A i).filter (· = y) = [y] := by
          exact filter_only (hi.repr.nodup i) hyA
        have e2 : ((A i).filter fun y => (w.states y).phase ≠ .mute).filter (· = y) =
            if (w.states y).phase = .mute then [] else [y] := by
          rw [filter_swap, e1]
          by_cases hm : (w.states y).phase = .mute <;> simp [hm]
        rw [e1, e2]
        by_cases hm : (w.states y).phase = .mute <;> simp [hm]
  · simp [pure_eq_ok] at h

/-- Track 0 is playing and track 1 is not when the sequence is replaced. -/
example : ((do
    let w ← IWorld.run 10 {} sampleOps
    let r ← w.setSequence 10 0 0 (.values [9] 0 1)
    return (r.1, r.2.told 0, r.2.told 1, r.2.told 2)) :
      C (Bool × List InstrEvent × List InstrEvent × List InstrEvent)) =
    .ok (true, [.mute, .reset], [.mute, .reset], []) := by
  decide +kernel

/-! ### C31: detaching and disposing -/

/-- C31: detaching an instrument works; afterwards no track refers to it, every track that used it
was told exactly once, and all other tracks and all instruments are as before. -/
theorem C31_detach (fuel i : Nat) (w : IWorld) (hw : w.Reach fuel) :
    ∃ w', w.exec fuel (.detach i) = .ok w' ∧
      (∀ y, w'.links.owner y ≠ some i) ∧
      (∀ y, w.links.owner y = some i → w'.links.owner y = none ∧
        (∀ k, k < 4 → ((w'.states y).slots k).seq = none) ∧ w'.told y = w.told y ++ [.dispose]) ∧
      (∀ y, w.links.owner y ≠ some i → w'.links.owner y = w.links.owner y ∧
        w'.states y = w.states y ∧ w'.told y = w.told y) ∧
      w'.instrs = w.instrs ∧ w'.heap = w.heap := by
  obtain ⟨A, hi, hl⟩ := hw.inv
  obtain ⟨w', A', e, h1, h2, h3, h4⟩ := IWorld.detach_inv hi i fuel (hl i)
  have told : ∀ y, w'.told y = w.told y ++ ((A i).filter (· = y)).map (fun _ => InstrEvent.dispose) := by
    intro y
    unfold IWorld.told
    rw [h4.log, List.filter_append, List.filter_map, List.map_append, List.map_map]
    rfl
  refine ⟨w', e, ?_, ?_, ?_, h4.instrs, h4.heap⟩
  · intro y hy
    have := (h1.repr.owner y i).1 hy
    rw [h2] at this; simp at this
  · intro y hy
    have hyA := (hi.repr.owner y i).1 hy
    refine ⟨by rw [h4.owner, if_pos hyA], ?_, ?_⟩
    · intro k hk
      rw [h4.states, if_pos hyA, IState.setSeqs_slot _ _ hk]
    · rw [told y, filter_only (hi.repr.nodup i) hyA]; rfl
  · intro y hy
    have hyA : y ∉ A i := fun hm => hy ((hi.repr.owner y i).2 hm)
    refine ⟨by rw [h4.owner, if_neg hyA], by rw [h4.states, if_neg hyA], ?_⟩
    rw [told y, List.filter_eq_nil_iff.2]
    · simp
    · intro z hz
      simp only [decide_eq_true_eq]
      intro e; subst e; exact hyA hz

/-- C31: the same for disposing, which moreover frees the sequences of the instrument and no
others. -/
theorem C31_dispose (fuel i : Nat) (w : IWorld) (hw : w.Reach fuel) :
    ∃ w', w.exec fuel (.dispose i) = .ok w' ∧
      (∀ y, w'.links.owner y ≠ some i) ∧
      (∀ y, w.links.owner y = some i → w'.links.owner y = none ∧
        (∀ k, k < 4 → ((w'.states y).slots k).seq = none) ∧ w'.told y = w.told y ++ [.dispose]) ∧
      (∀ y, w.links.owner y ≠ some i → w'.links.owner y = w.links.owner y ∧
        w'.states y = w.states y ∧ w'.told y = w.told y) ∧
      (∀ k id, (w.instrs i).sequences k = some id → w'.heap id = none ∧
        ∀ y l, l < 4 → ((w'.states y).slots l).seq ≠ some id) ∧
      (∀ j, j ≠ i → w'.instrs j = w.instrs j ∧
        ∀ k id, (w.instrs j).sequences k = some id → w'.heap id = w.heap id) := by
  obtain ⟨A, hi, hl⟩ := hw.inv
  obtain ⟨w', A', e, h1, h2, h3, h4⟩ := IWorld.dispose_inv hi i fuel (hl i)
  have told : ∀ y, w'.told y = w.told y ++ ((A i).filter (· = y)).map (fun _ => InstrEvent.dispose) := by
    intro y
    unfold IWorld.told
    rw [h4.log, List.filter_append, List.filter_map, List.map_append, List.map_map]
    rfl
  refine ⟨w', e, ?_, ?_, ?_, ?_, ?_⟩
  · intro y hy
    have := (h1.repr.owner y i).1 hy
    rw [h2] at this; simp at this
  · intro y hy
    have hyA := (hi.repr.owner y i).1 hy
    refine ⟨by rw [h4.owner, if_pos hyA], ?_, ?_⟩
    · intro k hk
      rw [h4.states, if_pos hyA, IState.setSeqs_slot _ _ hk]
    · rw [told y, filter_only (hi.repr.nodup i) hyA]; rfl
  · intro y hy
    have hyA : y ∉ A i := fun hm => hy ((hi.repr.owner y i).2 hm)
    refine ⟨by rw [h4.owner, if_neg hyA], by rw [h4.states, if_neg hyA], ?_⟩
    rw [told y, List.filter_eq_nil_iff.2]
    · simp
    · intro z hz
      simp only [decide_eq_true_eq]
      intro e; subst e; exact hyA hz
  · intro k id hk
    refine ⟨h4.freed k id hk, ?_⟩
    intro y l hl' hp
    obtain ⟨q, hq⟩ := (h1.slots y).1 l id hl' hp
    rw [h4.freed k id hk] at hq
    cases hq
  · intro j hj
    refine ⟨h4.others j hj, fun k id hk => h4.kept id fun l hl' => hj (hi.inj j k i l id hk hl').1⟩

example : ((do
    let w ← IWorld.run 10 {} (sampleOps ++ [.setInstrument 2 (some 1) true 1])
    let w' ← w.exec 10 (.dispose 0)
    return ([w'.links.owner 0, w'.links.owner 1, w'.links.owner 2], [w'.told 0, w'.told 1, w'.told 2])) :
      C (List (Option Nat) × List (List InstrEvent))) =
    .ok ([none, none, some 1], [[.dispose], [.mute, .dispose], []]) := by
  decide +kernel

/-! ### C30: mute notifications -/

theorem attack_events {fuel : Nat} {w w1 : IWorld} {A : Lists} (h : w.Inv False A) {x i : Nat}
    {duty : Int} (ds : List Bool) (hx : w.links.owner x = some i)
    (h1 : w.exec fuel (.attack x duty) = .ok w1) :
    w1.Inv False A ∧ w1.links = w.links ∧ w1.log = w.log ∧ (w1.states x).phase = .attack ∧
    w1.instrs = w.instrs ∧ w1.heap = w.heap ∧
    (w.AllEndNote i x duty ds ↔ w1.EndIn i x ds) := by
  have h1 : (do let w ← w.initValues x duty; w.setPhase x .attack) = .ok w1 := h1
  obtain ⟨w0, e0, e1⟩ := bind_ok_iff.1 h1
  have hiw := h.att x i hx
  have hv := IWorld.initValues_inv h x duty False.elim
  rw [e0] at hv
  obtain ⟨hinv0, -⟩ := hv
  obtain ⟨a1, a2, a3, a4, a5, a6, a7⟩ := initValues_slots hx (hiw.has.pt 3 (by omega)) e0
  have hx0 : w0.links.owner x = some i := by rw [a1]; exact hx
  have hi0 := hinv0.att x i hx0
  unfold IWorld.setPhase at e1
  rw [hx0] at e1
  obtain ⟨r, e2, e3⟩ := bind_ok_iff.1 e1
  have hs := IState.setPhase_inv (hinv0.instrOk i) hi0.has.ready (p := .attack) (by simp)
  rw [e2] at hs
  obtain ⟨g1, g2⟩ := hs
  obtain ⟨y, g3, g4, -⟩ := g2.go
  have g4 := g4 rfl
  simp only [pure_eq_ok, Except.ok.injEq] at e3
  subst g4
  refine ⟨by rw [← e3]; exact hinv0.setState hx0 g1 _, by rw [← e3]; exact a1, by rw [← e3]; simp [a4], ?_,
    by rw [← e3]; exact a2, by rw [← e3]; exact a3, ?_⟩
  · rw [← e3]; show (upd w0.states x _ x).phase = _; rw [upd_self]
  · unfold IWorld.AllEndNote IWorld.EndIn
    have ei : w1.instrs = w.instrs := by rw [← e3]; exact a2
    have eh : w1.heap = w.heap := by rw [← e3]; exact a3
    have es : ∀ k, (w1.states x).slots k = y.slots k := by
      intro k; rw [← e3]; show (upd w0.states x _ x).slots k = _; rw [upd_self]
    rw [ei, eh]
    refine forall_congr' fun k => forall_congr' fun id => ?_
    -- the sequence in this slot
    constructor
    · intro hh q e5 e6
      obtain ⟨rets, ⟨id', q', st, st', b1, b2, b3, b4⟩, b5⟩ := hh e5
      rw [e5] at b1; cases b1
      rw [e6] at b2; cases b2
      have hk := (h.live i k id e5).1
      have hst : st = ((w0.states x).slots k).st := by
        by_cases hk3 : k = 3
        · subst hk3
          rw [if_pos rfl] at b3
          obtain ⟨st2, c1, c2⟩ := a7 id q e5 e6
          rw [c1] at b3; cases b3
          rw [c2]
          have hval : st.value = duty := by
            obtain ⟨_, _, q2, hq2, hok⟩ := h.live i 3 id e5
            rw [e6] at hq2; cases hq2
            have := Sequence.setValue_inv hok (hiw.has.slot 3 id q (by omega) e5 e6) duty False.elim
            rw [c1] at this
            exact this.2.1
          rw [← hval]
        · rw [if_neg hk3] at b3
          cases b3
          rw [a6 k hk3]
      obtain ⟨rr, d1, _, d3⟩ := (g3 k hk).go id q (by rw [hi0.has.pt k hk, a2]; exact e5) (by rw [a3]; exact e6)
      rw [es k]
      exact (play_endsIn (by simp) d1 d3).1 ⟨rets, st', by rw [← hst]; exact b4, b5⟩
    · intro hh e5
      obtain ⟨hk, _, q, e6, hok⟩ := h.live i k id e5
      obtain ⟨rr, d1, _, d3⟩ := (g3 k hk).go id q (by rw [hi0.has.pt k hk, a2]; exact e5) (by rw [a3]; exact e6)
      have := hh q e5 e6
      rw [es k] at this
      obtain ⟨rets, st', f1, f2⟩ := (play_endsIn (by simp) d1 d3).2 this
      by_cases hk3 : k = 3
      · subst hk3
        obtain ⟨st2, c1, c2⟩ := a7 id q e5 e6
        have hval : st2.value = duty := by
          have := Sequence.setValue_inv hok (hiw.has.slot 3 id q (by omega) e5 e6) duty False.elim
          rw [c1] at this
          exact this.2.1
        have e7 : ((w0.states x).slots 3).st = st2 := by rw [c2, ← hval]
        exact ⟨rets, ⟨id, q, st2, st', e5, e6, by rw [if_pos rfl]; exact c1, by rw [← e7]; exact f1⟩, f2⟩
      · exact ⟨rets, ⟨id, q, _, st', e5, e6, by rw [if_neg hk3], by rw [← a6 k hk3]; exact f1⟩, f2⟩

/-- C30: from an attack on, the track is told to mute exactly once, and as soon as every sequence
of the instrument has come to its end (each one as if it were played alone) and not earlier.  An
instrument whose sequences all end with the attack itself (or without sequences) does not
mute. -/
theorem C30_attack (fuel : Nat) (w w1 w2 : IWorld) (hw : w.Reach fuel) (x i : Nat) (duty : Int)
    (ds : List Bool) (hx : w.links.owner x = some i) (h1 : w.exec fuel (.attack x duty) = .ok w1)
    (h2 : w1.run fuel (ticksOf x ds) = .ok w2) :
    w1.log = w.log ∧
    (w.AllEndNote i x duty ds ∧ ¬ w.AllEndNote i x duty [] → w2.log = w.log ++ [(x, .mute)]) ∧
    (¬ (w.AllEndNote i x duty ds ∧ ¬ w.AllEndNote i x duty []) → w2.log = w.log) := by
  obtain ⟨A, hi, _⟩ := hw.inv
  obtain ⟨b1, b2, b3, b4, -, -, b7⟩ := attack_events hi ds hx h1
  have b8 := (attack_events hi [] hx h1).2.2.2.2.2.2
  have hx1 : w1.links.owner x = some i := by rw [b2]; exact hx
  obtain ⟨c1, c2, c3, c4⟩ := ticks_events ds w1 A b1 hx1 (by rw [b4]; simp) w2 h2
  rw [b7, b8, IWorld.EndIn_nil b1 hx1]
  rw [b3] at c3 c4
  exact ⟨b3, fun h => (c3 h).1, fun h => (c4 h).1⟩

/-- What the track is told from a release on. -/
theorem release_events {fuel : Nat} {w2 w3 w4 : IWorld} {A : Lists} (hinv : w2.Inv False A) {x i : Nat} {ds' : List Bool}
    (hx2 : w2.links.owner x = some i) (hph : (w2.states x).phase = .attack)
    (h3 : w2.exec fuel (.release x) = .ok w3) (h4 : w3.run fuel (ticksOf x ds') = .ok w4) :
    (w2.AllEnd i x .release ds' → w4.log = w2.log ++ [(x, .mute)]) ∧
    (¬ w2.AllEnd i x .release ds' → w4.log = w2.log) := by
  have hi2 := hinv.att x i hx2
  have h3 : w2.setPhase x .release = .ok w3 := h3
  unfold IWorld.setPhase at h3
  rw [hx2] at h3
  obtain ⟨r, e2, e3⟩ := bind_ok_iff.1 h3
  have hs := IState.setPhase_inv (hinv.instrOk i) hi2.has.ready (p := .release) (by simp [hph])
  rw [e2] at hs
  obtain ⟨g1, g2⟩ := hs
  obtain ⟨y, g3, -, g4, g5⟩ := g2.go
  simp only [pure_eq_ok, Except.ok.injEq] at e3
  have hinv3 : w3.Inv False A := by rw [← e3]; exact hinv.setState hx2 g1 _
  have hl3 : w3.links = w2.links := by rw [← e3]
  have hx3 : w3.links.owner x = some i := by rw [hl3]; exact hx2
  have ei : w3.instrs = w2.instrs := by rw [← e3]
  have eh : w3.heap = w2.heap := by rw [← e3]
  have es : w3.states x = r.2 := by rw [← e3]; exact upd_self _ _ _
  have elog : w3.log = w2.log ++ r.1.map fun e => (x, e) := by rw [← e3]
  by_cases hc : y.cnt 4 = 0
  · obtain ⟨k1, k2⟩ := g5 rfl hc
    rw [hph, if_neg (by simp)] at k2
    obtain ⟨m1, -, -, -⟩ := muted_ticks ds' w3 A hinv3 hx3 (by rw [es]; exact k1) w4 h4
    have hall : w2.AllEnd i x .release ds' := by
      intro k id e5
      obtain ⟨hk, _, q, e6, hok⟩ := hinv.live i k id e5
      obtain ⟨rr, d1, _, d3⟩ := (g3 k hk).go id q (by rw [hi2.has.pt k hk]; exact e5) e6
      have hz := (IState.cnt_zero_iff _ _).1 hc k hk
      have hseq : (y.slots k).seq = some id := by rw [(g3 k hk).seq, hi2.has.pt k hk]; exact e5
      have hoff : (y.slots k).st.offset = INT_MAX := by simpa [ISlot.active, hseq] using hz
      obtain ⟨rets, hr⟩ := q.steps_over ds' hoff
      obtain ⟨rets', st', f1, f2⟩ := (play_endsIn (ds := ds') (by simp) d1 d3).2 ⟨rets, _, hr, .inl hoff⟩
      exact ⟨rets', ⟨id, q, st', e5, e6, f1⟩, f2⟩
    refine ⟨fun _ => by rw [m1, elog, k2]; rfl, fun hn => absurd hall hn⟩
  · have g4 := g4 rfl hc
    subst g4
    have hph3 : (w3.states x).phase ≠ .mute := by rw [es]; simp
    obtain ⟨-, -, m3, m4⟩ := ticks_events ds' w3 A hinv3 hx3 hph3 w4 h4
    have hcnt : (w3.states x).cnt 4 ≠ 0 := by
      rw [es]
      rw [IState.cnt_congr (y := y) fun _ _ => rfl]
      exact hc
    have hEnd : w2.AllEnd i x .release ds' ↔ w3.EndIn i x ds' := by
      unfold IWorld.AllEnd IWorld.EndIn
      rw [ei, eh, es]
      refine forall_congr' fun k => forall_congr' fun id => ?_
      constructor
      · intro hh q e5 e6
        obtain ⟨rets, ⟨id', q', st', b1, b2, b3⟩, b5⟩ := hh e5
        rw [e5] at b1; cases b1
        rw [e6] at b2; cases b2
        have hk := (hinv.live i k id e5).1
        obtain ⟨rr, d1, _, d3⟩ := (g3 k hk).go id q (by rw [hi2.has.pt k hk]; exact e5) e6
        exact (play_endsIn (by simp) d1 d3).1 ⟨rets, st', b3, b5⟩
      · intro hh e5
        obtain ⟨hk, _, q, e6, hok⟩ := hinv.live i k id e5
        obtain ⟨rr, d1, _, d3⟩ := (g3 k hk).go id q (by rw [hi2.has.pt k hk]; exact e5) e6
        obtain ⟨rets, st', f1, f2⟩ := (play_endsIn (by simp) d1 d3).2 (hh q e5 e6)
        exact ⟨rets, ⟨id, q, st', e5, e6, f1⟩, f2⟩
    rw [elog] at m3 m4
    simp only [List.map_nil, List.append_nil] at m3 m4
    exact ⟨fun h => (m3 ⟨hEnd.1 h, hcnt⟩).1, fun h => (m4 fun ⟨a, _⟩ => h (hEnd.2 a)).1⟩

/-- C30: from the release of a note that is still playing, the track is told to mute exactly once,
and as soon as every sequence has come to the end of its release part and not earlier (at the
release itself if there is nothing to play). -/
theorem C30_release (fuel : Nat) (w w1 w2 w3 w4 : IWorld) (hw : w.Reach fuel) (x i : Nat) (duty : Int)
    (ds ds' : List Bool) (hx : w.links.owner x = some i) (h1 : w.exec fuel (.attack x duty) = .ok w1)
    (h2 : w1.run fuel (ticksOf x ds) = .ok w2) (hq : w2.log = w.log)
    (h3 : w2.exec fuel (.release x) = .ok w3) (h4 : w3.run fuel (ticksOf x ds') = .ok w4) :
    (w2.AllEnd i x .release ds' → w4.log = w2.log ++ [(x, .mute)]) ∧
    (¬ w2.AllEnd i x .release ds' → w4.log = w2.log) := by
  obtain ⟨A, hi, _⟩ := hw.inv
  obtain ⟨b1, b2, b3, b4, -, -, -⟩ := attack_events hi ds hx h1
  have hx1 : w1.links.owner x = some i := by rw [b2]; exact hx
  obtain ⟨hinv, hl2, c3, c4⟩ := ticks_events ds w1 A b1 hx1 (by rw [b4]; simp) w2 h2
  have hph : (w2.states x).phase = .attack := by
    by_cases hc : w1.EndIn i x ds ∧ (w1.states x).cnt 4 ≠ 0
    · have := (c3 hc).1
      rw [hq, b3] at this
      simp at this
    · rw [(c4 hc).2, b4]
  have hx2 : w2.links.owner x = some i := by rw [hl2]; exact hx1
  exact release_events hinv hx2 hph h3 h4

/-- C30: releasing again while the release part plays has no effect. -/
theorem C30_again (fuel : Nat) (w w1 w2 w3 w4 : IWorld) (hw : w.Reach fuel) (x i : Nat) (duty : Int)
    (ds ds' : List Bool) (hx : w.links.owner x = some i) (h1 : w.exec fuel (.attack x duty) = .ok w1)
    (h2 : w1.run fuel (ticksOf x ds) = .ok w2) (hq : w2.log = w.log)
    (h3 : w2.exec fuel (.release x) = .ok w3) (h4 : w3.run fuel (ticksOf x ds') = .ok w4)
    (hq4 : w4.log = w2.log) : w4.exec fuel (.release x) = .ok w4 := by
  obtain ⟨A, hi, _⟩ := hw.inv
  obtain ⟨b1, b2, b3, b4, -, -, b7⟩ := attack_events hi ds hx h1
  have hx1 : w1.links.owner x = some i := by rw [b2]; exact hx
  obtain ⟨hinv, hl2, c3, c4⟩ := ticks_events ds w1 A b1 hx1 (by rw [b4]; simp) w2 h2
  have hph : (w2.states x).phase = .attack := by
    by_cases hc : w1.EndIn i x ds ∧ (w1.states x).cnt 4 ≠ 0
    · have := (c3 hc).1
      rw [hq, b3] at this
      simp at this
    · rw [(c4 hc).2, b4]
  have hx2 : w2.links.owner x = some i := by rw [hl2]; exact hx1
  have hi2 := hinv.att x i hx2
  have h3 : w2.setPhase x .release = .ok w3 := h3
  unfold IWorld.setPhase at h3
  rw [hx2] at h3
  obtain ⟨r, e2, e3⟩ := bind_ok_iff.1 h3
  have hs := IState.setPhase_inv (hinv.instrOk i) hi2.has.ready (p := .release) (by simp [hph])
  rw [e2] at hs
  obtain ⟨g1, g2⟩ := hs
  obtain ⟨y, g3, -, g4, g5⟩ := g2.go
  simp only [pure_eq_ok, Except.ok.injEq] at e3
  have hinv3 : w3.Inv False A := by rw [← e3]; exact hinv.setState hx2 g1 _
  have hl3 : w3.links = w2.links := by rw [← e3]
  have hx3 : w3.links.owner x = some i := by rw [hl3]; exact hx2
  have es : w3.states x = r.2 := by rw [← e3]; exact upd_self _ _ _
  have elog : w3.log = w2.log ++ r.1.map fun e => (x, e) := by rw [← e3]
  have hph4 : (w4.states x).phase = .release ∧ w4.links = w3.links := by
    by_cases hc : y.cnt 4 = 0
    · obtain ⟨k1, k2⟩ := g5 rfl hc
      rw [hph, if_neg (by simp)] at k2
      obtain ⟨m1, -, -, -⟩ := muted_ticks ds' w3 A hinv3 hx3 (by rw [es]; exact k1) w4 h4
      rw [m1, elog, k2] at hq4
      simp at hq4
    · have g4 := g4 rfl hc
      subst g4
      have hph3 : (w3.states x).phase ≠ .mute := by rw [es]; simp
      obtain ⟨-, m2, m3, m4⟩ := ticks_events ds' w3 A hinv3 hx3 hph3 w4 h4
      by_cases hcc : w3.EndIn i x ds' ∧ (w3.states x).cnt 4 ≠ 0
      · have := (m3 hcc).1
        rw [hq4, elog] at this
        simp at this
      · exact ⟨by rw [(m4 hcc).2, es], m2⟩
  show w4.setPhase x .release = .ok w4
  unfold IWorld.setPhase
  rw [show w4.links.owner x = some i by rw [hph4.2]; exact hx3]
  dsimp only
  unfold IState.setPhase IState.setPhaseCore
  rw [if_pos ⟨hph4.1, rfl⟩]
  simp only [pure_eq_ok, ok_bind]
  simp only [Bool.false_eq_true, if_false, ok_bind, List.map_nil, List.append_nil, upd_same]

/-- C30 fails as stated: a release after the note has ended starts the release part again, and the
track is told to mute a second time. -/
theorem C30_refuted :
    (IWorld.run 20 {} [.setSequence 0 0 (.values [3, 2, 1] 1 1), .setInstrument 0 (some 0) true 2,
        .attack 0 2, .tick 0 true, .release 0, .tick 0 true, .tick 0 true]).map (·.log) = .ok [(0, .mute)] ∧
    (IWorld.run 20 {} [.setSequence 0 0 (.values [3, 2, 1] 1 1), .setInstrument 0 (some 0) true 2,
        .attack 0 2, .tick 0 true, .release 0, .tick 0 true, .tick 0 true,
        .release 0, .tick 0 true, .tick 0 true]).map (·.log) = .ok [(0, .mute), (0, .mute)] := by
  constructor <;> decide +kernel

/-- C30 fails as stated: a sequence without sustain part ends, and the track is muted, while the
note is held. -/
theorem C30_held_refuted :
    (IWorld.run 20 {} [.setSequence 0 0 (.values [3, 2] 2 0), .setInstrument 0 (some 0) true 2,
        .attack 0 2, .tick 0 true, .tick 0 true, .tick 0 true]).map (·.log) = .ok [(0, .mute)] := by
  decide +kernel

/-- A note of the kind meant in `C30_attack`, `C30_release` and `C30_again`: quiet while held and at
the beginning of its release part. -/
example : ((do
    let w ← IWorld.run 20 {} [.setSequence 0 0 (.values [3, 2, 1, 0] 1 1), .setInstrument 0 (some 0) true 2]
    let w1 ← w.exec 20 (.attack 0 2)
    let w2 ← w1.run 20 (ticksOf 0 [true, false, true, true, true])
    let w3 ← w2.exec 20 (.release 0)
    let w4 ← w3.run 20 (ticksOf 0 [true, true])
    let w5 ← w4.run 20 (ticksOf 0 [true])
    return (w.links.owner 0, [w1.log, w2.log, w3.log, w4.log, w5.log])) :
      C (Option Nat × List (List (Nat × InstrEvent)))) =
    .ok (some 0, [[], [], [], [], [(0, .mute)]]) := by decide +kernel

/-! ### C76: tracks do not disturb each other -/

/-- What calls on track `y` can change. -/
structure Touches (y : Nat) (w w' : IWorld) : Prop where
  instrs : w'.instrs = w.instrs
  heap : w'.heap = w.heap
  owner : ∀ z, z ≠ y → w'.links.owner z = w.links.owner z
  states : ∀ z, z ≠ y → w'.states z = w.states z
  told : ∀ z, z ≠ y → w'.told z = w.told z

theorem Touches.refl (y : Nat) (w : IWorld) : Touches y w w :=
  ⟨rfl, rfl, fun _ _ => rfl, fun _ _ => rfl, fun _ _ => rfl⟩

theorem Touches.trans {y : Nat} {w w1 w2 : IWorld} (h : Touches y w w1) (h' : Touches y w1 w2) :
    Touches y w w2 :=
  ⟨h'.instrs.trans h.instrs, h'.heap.trans h.heap, fun z hz => (h'.owner z hz).trans (h.owner z hz),
   fun z hz => (h'.states z hz).trans (h.states z hz), fun z hz => (h'.told z hz).trans (h.told z hz)⟩

theorem told_other {w : IWorld} {y z : Nat} (hz : z ≠ y) (evs : List InstrEvent) (w' : IWorld)
    (hl : w'.log = w.log ++ evs.map fun e => (y, e)) : w'.told z = w.told z := by
  unfold IWorld.told
  rw [hl, List.filter_append, List.filter_map]
  have : evs.filter ((fun e : Nat × InstrEvent => decide (e.1 = z)) ∘ fun e => (y, e)) = [] := by
    rw [List.filter_eq_nil_iff]
    intro e _
    simp only [Function.comp_apply, decide_eq_true_eq]
    exact fun e => hz e.symm
  rw [this]; simp

theorem Touches.state {y : Nat} {w : IWorld} (s : IState) (evs : List InstrEvent) :
    Touches y w { w with states := upd w.states y s, log := w.log ++ evs.map fun e => (y, e) } :=
  ⟨rfl, rfl, fun _ _ => rfl, fun _ hz => upd_ne _ _ hz, fun _ hz => told_other hz evs _ rfl⟩

theorem setPhase_touches {y : Nat} {p : SeqPhase} {w w' : IWorld} (h : w.setPhase y p = .ok w') :
    Touches y w w' := by
  unfold IWorld.setPhase at h
  cases e : w.links.owner y with
  | none => rw [e] at h; cases h; exact Touches.refl y w
  | some i =>
    rw [e] at h
    obtain ⟨r, _, h2⟩ := bind_ok_iff.1 h
    simp only [pure_eq_ok, Except.ok.injEq] at h2
    rw [← h2]; exact Touches.state _ _

theorem tick_touches {y : Nat} {d : Bool} {w w' : IWorld} (h : w.tick y d = .ok w') :
    Touches y w w' := by
  unfold IWorld.tick at h
  cases e : w.links.owner y with
  | none => rw [e] at h; cases h
  | some i =>
    rw [e] at h
    obtain ⟨r, _, h2⟩ := bind_ok_iff.1 h
    simp only [pure_eq_ok, Except.ok.injEq] at h2
    rw [← h2]; exact Touches.state _ _

theorem initValues_touches {y : Nat} {duty : Int} {w w' : IWorld} (h : w.initValues y duty = .ok w') :
    Touches y w w' := by
  unfold IWorld.initValues at h
  cases e : w.links.owner y with
  | none => rw [e] at h; cases h; exact Touches.refl y w
  | some i =>
    rw [e] at h
    dsimp only at h
    cases e2 : (w.instrs i).sequences 3 with
    | none => rw [e2] at h; cases h; exact Touches.refl y w
    | some id =>
      rw [e2] at h
      obtain ⟨r, _, h2⟩ := bind_ok_iff.1 h
      simp only [pure_eq_ok, Except.ok.injEq] at h2
      have := Touches.state (y := y) (w := w) ((w.states y).setSlot 3 r) []
      simp only [List.map_nil, List.append_nil] at this
      rw [← h2]; exact this

theorem attack_touches {y : Nat} {duty : Int} {w w' : IWorld} (h : w.attack y duty = .ok w') :
    Touches y w w' := by
  obtain ⟨w1, h1, h2⟩ := bind_ok_iff.1 h
  exact (initValues_touches h1).trans (setPhase_touches h2)

theorem setInstrument_touches {y : Nat} {i : Option Nat} {w w' : IWorld} (h : w.setInstrument y i = .ok w') :
    Touches y w w' := by
  cases i with
  | none =>
    cases h
    refine ⟨rfl, rfl, fun z hz => ?_, fun z hz => upd_ne _ _ hz, fun _ _ => rfl⟩
    show (w.links.removeState y).owner z = _
    rw [Links.owner_removeState, if_neg hz]
  | some i =>
    obtain ⟨s1, _, h2⟩ := bind_ok_iff.1 h
    obtain ⟨s2, _, h3⟩ := bind_ok_iff.1 h2
    refine Touches.trans (w1 := { w with links := (w.links.removeState y).addState y i, states := upd w.states y s2 })
      ⟨rfl, rfl, fun z hz => ?_, fun z hz => upd_ne _ _ hz, fun _ _ => rfl⟩ (setPhase_touches h3)
    show ((w.links.removeState y).addState y i).owner z = _
    rw [Links.owner_addState _ _ _ _ (by rw [Links.owner_removeState, if_pos rfl]), Links.owner_removeState]
    simp [hz]

theorem trackSetInstrument_touches {y : Nat} {i : Option Nat} {pl : Bool} {duty : Int} {w w' : IWorld}
    (h : w.trackSetInstrument y i pl duty = .ok w') : Touches y w w' := by
  unfold IWorld.trackSetInstrument at h
  split at h
  · cases h; exact Touches.refl y w
  obtain ⟨w1, h1, h2⟩ := bind_ok_iff.1 h
  have t1 := setInstrument_touches h1
  split at h2
  · cases h2; exact t1
  obtain ⟨w2, h3, h4⟩ := bind_ok_iff.1 h2
  have t2 := t1.trans (initValues_touches h3)
  split at h4
  · exact t2.trans (attack_touches h4)
  · exact t2.trans (setPhase_touches h4)

/-- C76: calls that concern neither the track nor its instrument change nothing for the track. -/
theorem C76_undisturbed (fuel : Nat) (w w' : IWorld) (hw : w.Reach fuel) (op : InstrOp) (hs : op.Short)
    (h : w.exec fuel op = .ok w') (x : Nat) (hc : ¬ op.Concerns w x) : w.SameFor x w' := by
  have touched : ∀ y, y ≠ x → Touches y w w' → w.SameFor x w' := fun y hy t =>
    ⟨t.owner x hy.symm, t.states x hy.symm, t.told x hy.symm, fun i _ =>
      ⟨by rw [t.instrs], fun k id _ => by rw [t.heap]⟩⟩
  obtain ⟨A, hi, _⟩ := hw.inv
  cases op with
  | setSequence i slot new =>
    obtain ⟨r, h1, h2⟩ := bind_ok_iff.1 h
    simp only [pure_eq_ok, Except.ok.injEq] at h2
    subst h2
    obtain ⟨b, w1⟩ := r
    cases b with
    | false =>
      rw [C29_unchanged fuel i slot new w w1 h1]
      exact ⟨rfl, rfl, rfl, fun _ _ => ⟨rfl, fun _ _ _ => rfl⟩⟩
    | true =>
      obtain ⟨_, _, h3, h4, _, h6, h7, _⟩ := C75_replaced fuel i slot new hs w w1 hw h1
      obtain ⟨h8, h9⟩ := h7 x hc
      refine ⟨by rw [h6], h8, h9, fun j hj => ?_⟩
      have hne : j ≠ i := fun e => hc (by show w.links.owner x = some i; rw [hj, e])
      exact ⟨h3 j hne, fun k id hk => h4 j k id (by simp [hne]) hk⟩
  | detach i =>
    obtain ⟨w1, h1, _, _, h4, h5, h6⟩ := C31_detach fuel i w hw
    rw [h] at h1; cases h1
    obtain ⟨a, b, c⟩ := h4 x hc
    exact ⟨a, b, c, fun j _ => ⟨by rw [h5], fun _ _ _ => by rw [h6]⟩⟩
  | dispose i =>
    obtain ⟨w1, h1, _, _, h4, _, h6⟩ := C31_dispose fuel i w hw
    rw [h] at h1; cases h1
    obtain ⟨a, b, c⟩ := h4 x hc
    refine ⟨a, b, c, fun j hj => ?_⟩
    exact h6 j fun e => hc (by show w.links.owner x = some i; rw [hj, e])
  | setInstrument y i playing duty => exact touched y hc (trackSetInstrument_touches h)
  | attack y duty => exact touched y hc (attack_touches h)
  | release y => exact touched y hc (setPhase_touches h)
  | mute y => exact touched y hc (setPhase_touches h)
  | tick y d =>
    have h : (if w.links.owner y = none then .ok w else w.tick y d) = .ok w' := h
    split at h
    · cases h; exact ⟨rfl, rfl, rfl, fun _ _ => ⟨rfl, fun _ _ _ => rfl⟩⟩
    · exact touched y hc (tick_touches h)

/-- Track 1 is not concerned by a note on track 0, nor by disposing another instrument. -/
example : ∀ w, IWorld.run 10 {} sampleOps = .ok w →
    ¬ (InstrOp.attack 0 3).Concerns w 1 ∧ ¬ (InstrOp.dispose 5).Concerns w 1 := by
  have e : (IWorld.run 10 {} sampleOps).map (fun w => w.links.owner 1) = .ok (some 0) := by decide +kernel
  intro w hw
  rw [hw] at e
  have e : w.links.owner 1 = some 0 := by simpa [Except.map] using e
  refine ⟨?_, ?_⟩
  · simp [InstrOp.Concerns]
  · simp [InstrOp.Concerns, e]

/-! ### C71: duty-cycle envelopes -/

/-- C71 fails: playing a note with a duty-cycle envelope between 2 and 1 on a track with duty cycle
15 overflows. -/
theorem C71_refuted :
    IWorld.run 20 {} [.setSequence 0 3 (.points [⟨10, 2⟩, ⟨10, 1⟩] 2 0),
      .setInstrument 0 (some 0) true 15] = .error .overflow := by rfl

theorem fits_duty {ps : List EnvPoint} {so sl : Int} {q : EnvSeq} (hu : UsualEnv ps so sl)
    (hq : EnvSeq.create ps so sl = .ok (some q)) {duty : Int} (hd : 1 ≤ duty ∧ duty ≤ 15)
    (hp : ∃ p ∈ ps, duty ≤ p.value.natAbs + 1 ∨ 8 ≤ p.value.natAbs) : (SeqOp.setValue duty).Fits q := by
  obtain ⟨p, hp1, hp2⟩ := hp
  obtain ⟨_, _, h3⟩ := EnvSeq.create_W hu.short hu.hso hu.hsl
    (fun p hp => by have := hu.steps p hp; unfold InU32; omega) hq
  obtain ⟨m, h4, h5, h6, h7⟩ := maxAbs_spec ps 1073741823 (by omega)
    (fun p hp => by have := hu.vals p hp; omega) 0 (by omega) (by omega)
  unfold fracShiftOf at h3
  rw [h4] at h3
  simp only [ok_bind, pure_eq_ok, Except.ok.injEq] at h3
  obtain ⟨_, f2, f3, _⟩ := fracLoop_spec m 30 0
  have f3 := f3 (by simp; omega)
  have hv := h7 p hp1
  have habs : (p.value.natAbs : Int) ≤ m := by omega
  generalize fracLoop m 30 0 = s at *
  have hs30 : s ≤ 30 := by omega
  have hle : duty ≤ 2 ^ s := by
    rcases hp2 with h | h
    · omega
    · have hs4 : 4 ≤ s := by
        by_contra hc
        have h8 : 2 ^ s ≤ 2 ^ 3 := Nat.pow_le_pow_right (by omega) (show s ≤ 3 by omega)
        have h9 : (2 : Int) ^ s ≤ 2 ^ 3 := by exact_mod_cast h8
        omega
      have h8 : 2 ^ 4 ≤ 2 ^ s := Nat.pow_le_pow_right (by omega) hs4
      have h9 : (2 : Int) ^ 4 ≤ 2 ^ s := by exact_mod_cast h8
      omega
  show -1073741824 ≤ duty * 2 ^ q.fracShift ∧ duty * 2 ^ q.fracShift ≤ 1073741824
  rw [← h3]
  have hpos : (0 : Int) < 2 ^ (30 - s) := two_pow_pos _
  have hmul : (2 : Int) ^ s * 2 ^ (30 - s) = 1073741824 := by
    rw [← Int.pow_add, show s + (30 - s) = 30 by omega]; rfl
  have h1 : duty * 2 ^ (30 - s) ≤ 2 ^ s * 2 ^ (30 - s) := Int.mul_le_mul_of_nonneg_right hle (by omega)
  have h2 : 0 ≤ duty * 2 ^ (30 - s) := Int.mul_nonneg (by omega) (by omega)
  omega

/-- C71 holds if the duty-cycle envelope contains a value of at least 8, or one that is not smaller
than the duty cycle of the track minus 1.  What is missing: envelopes with small values only
(`C71_refuted`). -/
theorem C71_attack_partial (fuel : Nat) (ops : List InstrOp) (hs : ∀ op ∈ ops, op.Short)
    (hf : ops.length ≤ fuel) (hu : IWorld.UsualRun fuel {} ops) (w : IWorld)
    (hw : IWorld.run fuel {} ops = .ok w) (x i id : Nat) (duty : Int) (hd : 1 ≤ duty ∧ duty ≤ 15)
    (hx : w.links.owner x = some i) (ps : List EnvPoint) (so sl : Int) (q : EnvSeq)
    (hps : UsualEnv ps so sl) (hq : EnvSeq.create ps so sl = .ok (some q))
    (hi : (w.instrs i).sequences 3 = some id) (hh : w.heap id = some (.env q))
    (hp : ∃ p ∈ ps, duty ≤ p.value.natAbs + 1 ∨ 8 ≤ p.value.natAbs) :
    ∃ w', w.exec fuel (.attack x duty) = .ok w' := by
  have hr := IWorld.run_inv (B := True) fuel ops {} (fun _ => []) 0 (IWorld.Inv.init True) hs
    (fun _ => hu) (by simp) (by omega)
  rw [hw] at hr
  obtain ⟨A, hinv, _⟩ := hr
  obtain ⟨w', h, _⟩ := (IWorld.attack_inv hinv x duty (fun _ j hj => by
    rw [hx] at hj; cases hj
    intro id' q' h1 h2
    rw [hi] at h1; cases h1
    rw [hh] at h2; cases h2
    exact fits_duty hps hq hd hp)).get trivial
  exact ⟨w', h⟩

example : ∃ p ∈ [(⟨10, 2⟩ : EnvPoint), ⟨10, 12⟩], (15 : Int) ≤ p.value.natAbs + 1 ∨ 8 ≤ p.value.natAbs :=
  ⟨⟨10, 12⟩, by simp, .inr (by decide)⟩

end BK
