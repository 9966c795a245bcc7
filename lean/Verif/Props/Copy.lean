import Verif.Model.Copy
import Verif.Props.SeqCopy
import Verif.Lemmas.DataMem
/-! C88: copies of data objects and instruments. -/
namespace BK

/-- What can be seen of data: number of frames and channels, pitch, sustain range and the frames. -/
def CopyWorld.content (w : CopyWorld) (d : Nat) : C (Nat × Nat × Int × Int × Int × List Int) := do
  let x := w.objs d
  let l ← w.read x.frames (x.numFrames * x.numChannels)
  return (x.numFrames, x.numChannels, x.samplePitch, x.sustainOffset, x.sustainEnd, l)

/-- Data that can be played: the block of its frames exists and is large enough. -/
structure CopyWorld.Playable (w : CopyWorld) (d b : Nat) (l : List Int) : Prop where
  frames : (w.objs d).frames = some b
  block : w.heap b = some l
  size : (w.objs d).numFrames * (w.objs d).numChannels ≤ l.length
  least : 2 ≤ (w.objs d).numFrames
  chans : 1 ≤ (w.objs d).numChannels ∧ (w.objs d).numChannels ≤ 8

/-- Blocks that have not been allocated do not exist. -/
def CopyWorld.Fresh (w : CopyWorld) : Prop := ∀ b, w.next ≤ b → w.heap b = none

theorem CopyWorld.initCopy_eq {w : CopyWorld} {c o b : Nat} {l : List Int} (hp : w.Playable o b l) :
    w.initCopy c o true = .ok (.ok,
      { w with
        heap := upd w.heap w.next (some (l.take ((w.objs o).numFrames * (w.objs o).numChannels)))
        next := w.next + 1
        objs := upd w.objs c { w.objs o with init := false, alloc := false, users := [], copied := true
                                             frames := some w.next, numBits := 16 } }) := by
  have hc := hp.chans
  have hl := hp.least
  unfold CopyWorld.initCopy
  dsimp only
  rw [hp.frames]
  dsimp only
  unfold CopyWorld.setFrames
  rw [if_neg (by omega), if_neg (by omega), if_neg (by simp)]
  have hx : (w.put c { w.objs o with init := false, alloc := false, users := [], frames := none }).objs c =
      { w.objs o with init := false, alloc := false, users := [], frames := none } := upd_self _ _ _
  rw [hx]
  have h1 : (w.put c { w.objs o with init := false, alloc := false, users := [], frames := none }).drop c =
      .ok (w.put c { w.objs o with init := false, alloc := false, users := [], frames := none }) := by
    unfold CopyWorld.drop
    rw [hx]
    dsimp only
    split <;> rfl
  dsimp only at h1 ⊢
  rw [h1, ok_bind]
  have hr : (w.put c { w.objs o with init := false, alloc := false, users := [], frames := none }).read (some b)
      ((w.objs o).numFrames * (w.objs o).numChannels) =
      .ok (l.take ((w.objs o).numFrames * (w.objs o).numChannels)) := by
    unfold CopyWorld.read CopyWorld.put
    dsimp only
    rw [hp.block]
    dsimp only
    rw [if_pos hp.size]
  rw [hr, ok_bind]
  unfold CopyWorld.put
  dsimp only
  rw [upd_upd]
  rfl

/-- **C88** (data; partial: the copy is not a complete object, see `C88_refuted_data`).  If there is memory, copying
succeeds: the copy has the content of the original and no users, and the content and the users of the original are
as before. -/
theorem C88_data_partial {w : CopyWorld} {c o b : Nat} {l : List Int} (hp : w.Playable o b l) (hf : w.Fresh)
    (hco : c ≠ o) : ∃ w', w.initCopy c o true = .ok (.ok, w') ∧ w'.content c = w.content o ∧
      (∃ x, w.content o = .ok x) ∧ (w'.objs c).users = [] ∧ w'.objs o = w.objs o ∧ w'.content o = w.content o := by
  have hb : b ≠ w.next := fun h => by
    have := hf b (by omega)
    rw [hp.block] at this
    cases this
  have ho : w.content o = .ok ((w.objs o).numFrames, (w.objs o).numChannels, (w.objs o).samplePitch,
      (w.objs o).sustainOffset, (w.objs o).sustainEnd, l.take ((w.objs o).numFrames * (w.objs o).numChannels)) := by
    unfold CopyWorld.content CopyWorld.read
    dsimp only
    rw [hp.frames]
    dsimp only
    rw [hp.block]
    dsimp only
    rw [if_pos hp.size]
    rfl
  refine ⟨_, CopyWorld.initCopy_eq hp, ?_, ⟨_, ho⟩, ?_, ?_, ?_⟩
  · rw [ho]
    unfold CopyWorld.content CopyWorld.read
    dsimp only
    rw [upd_self]
    dsimp only
    rw [upd_self]
    dsimp only
    rw [if_pos (by rw [List.length_take]; have := hp.size; omega)]
    rw [List.take_take, Nat.min_self]
    rfl
  · dsimp only; rw [upd_self]
  · dsimp only; rw [upd_ne _ _ (Ne.symm hco)]
  · rw [ho]
    unfold CopyWorld.content CopyWorld.read
    dsimp only
    rw [upd_ne _ _ (Ne.symm hco), hp.frames]
    dsimp only
    rw [upd_ne _ _ hb, hp.block]
    dsimp only
    rw [if_pos hp.size]
    rfl

theorem CopyWorld.content_congr {w w2 : CopyWorld} {c n : Nat} (hn : (w.objs c).frames = some n)
    (ho : w2.objs c = w.objs c) (hh : w2.heap n = w.heap n) : w2.content c = w.content c := by
  unfold CopyWorld.content CopyWorld.read
  dsimp only
  rw [ho, hn]
  dsimp only
  rw [hh]

theorem CopyWorld.free_keeps {w w2 : CopyWorld} {p : Option Nat} {n : Nat} (h : w.free p = .ok w2)
    (hn : p ≠ some n) : w2.heap n = w.heap n ∧ w2.objs = w.objs ∧ w2.next = w.next := by
  unfold CopyWorld.free at h
  cases p with
  | none => cases h; exact ⟨rfl, rfl, rfl⟩
  | some b =>
    dsimp only at h
    cases hb : w.heap b with
    | none => rw [hb] at h; cases h
    | some l =>
      rw [hb] at h
      cases h
      exact ⟨upd_ne _ _ (fun e => hn (by rw [e])), rfl, rfl⟩

/-- **C88** (the copy is independent of the original; partial as before).  Whatever is done to the original after
copying — the block of its frames is overwritten, it is disposed of, it gets other frames — the content of the copy
stays. -/
theorem C88_apart_partial {w w' : CopyWorld} {c o b : Nat} {l : List Int} (hp : w.Playable o b l) (hf : w.Fresh)
    (hco : c ≠ o) (hw : w.initCopy c o true = .ok (.ok, w')) :
    (∀ l', (w'.write b l').content c = w'.content c) ∧
    (∀ w2, w'.dispose o = .ok w2 → w2.content c = w'.content c) ∧
    (∀ src n k mem r w2, w'.setFrames o src n k mem = .ok (r, w2) → w2.content c = w'.content c) := by
  have hb : w.next ≠ b := fun h => by
    have := hf b (by omega)
    rw [hp.block] at this
    cases this
  rw [CopyWorld.initCopy_eq hp] at hw
  have hw := (Prod.mk.inj (Except.ok.inj hw)).2
  have f1 : (w'.objs c).frames = some w.next := by rw [← hw]; dsimp only; rw [upd_self]
  have f2 : (w'.objs o).frames = some b := by rw [← hw]; dsimp only; rw [upd_ne _ _ (Ne.symm hco)]; exact hp.frames
  have f3 : w'.next = w.next + 1 := by rw [← hw]
  have f4 : (w'.objs o).frames ≠ some w.next := by rw [f2]; exact fun h => hb (Option.some.inj h).symm
  refine ⟨fun l' => ?_, fun w2 h => ?_, fun src n k mem r w2 h => ?_⟩
  · exact CopyWorld.content_congr f1 rfl (upd_ne _ _ hb)
  · unfold CopyWorld.dispose at h
    split at h
    · obtain ⟨w3, h1, h2⟩ := bind_ok_iff.1 h
      cases h2
      have k : w3.heap w.next = w'.heap w.next ∧ w3.objs = w'.objs := by
        unfold CopyWorld.drop at h1
        split at h1
        · have := CopyWorld.free_keeps h1 f4; exact ⟨this.1, this.2.1⟩
        · cases h1; exact ⟨rfl, rfl⟩
      exact CopyWorld.content_congr f1 (by unfold CopyWorld.put; dsimp only; rw [upd_ne _ _ hco, k.2]) k.1
    · cases h; rfl
  · unfold CopyWorld.setFrames at h
    split at h
    · cases h; rfl
    split at h
    · cases h; rfl
    split at h
    · cases h; rfl
    obtain ⟨w3, h1, h2⟩ := bind_ok_iff.1 h
    obtain ⟨l3, h3, h4⟩ := bind_ok_iff.1 h2
    cases h4
    have k : w3.heap w.next = w'.heap w.next ∧ w3.objs = w'.objs ∧ w3.next = w'.next := by
      unfold CopyWorld.drop at h1
      split at h1
      · exact CopyWorld.free_keeps h1 f4
      · cases h1; exact ⟨rfl, rfl, rfl⟩
    refine CopyWorld.content_congr f1 ?_ ?_
    · unfold CopyWorld.put; dsimp only; rw [upd_ne _ _ hco, k.2.1]
    · unfold CopyWorld.put; dsimp only; rw [upd_ne _ _ (by omega), k.1]

/-- **C88** does not hold for data: disposing of a copy has no effect, for every original and whatever users the copy
has got since (`us`); the block with its frames stays allocated, and its users are not detached. -/
theorem C88_refuted_data {w w' : CopyWorld} {c o b : Nat} {l : List Int} (hp : w.Playable o b l)
    (hw : w.initCopy c o true = .ok (.ok, w')) (us : List Nat) :
    let w2 := w'.put c { w'.objs c with users := us }
    w2.dispose c = .ok w2 ∧ (∃ n, (w2.objs c).frames = some n ∧ ∃ l', w2.heap n = some l') ∧
    (w2.objs c).users = us := by
  rw [CopyWorld.initCopy_eq hp] at hw
  have hw := (Prod.mk.inj (Except.ok.inj hw)).2
  subst hw
  dsimp only
  unfold CopyWorld.put CopyWorld.dispose
  dsimp only
  simp only [upd_self]
  exact ⟨if_neg (by simp), ⟨_, rfl, _, upd_self _ _ _⟩, trivial⟩

/-- Data with eight frames for the examples. -/
def copyExample : CopyWorld :=
  { objs := upd (fun _ => {}) 3 { init := true, copied := true, numBits := 16, numFrames := 4, numChannels := 2
                                  samplePitch := 1048576, frames := some 0, users := [1, 2] }
    heap := upd (fun _ => none) 0 (some [1, 2, 3, 4, 5, 6, 7, 8])
    next := 1 }

example : copyExample.Playable 3 0 [1, 2, 3, 4, 5, 6, 7, 8] ∧ copyExample.Fresh := by
  refine ⟨⟨rfl, rfl, by decide, by decide, by decide, by decide⟩, fun b hb => ?_⟩
  have hb : 1 ≤ b := hb
  show upd (fun _ => none) 0 (some [1, 2, 3, 4, 5, 6, 7, 8]) b = none
  exact upd_ne _ _ (by omega)

example : (copyExample.initCopy 4 3 true >>= fun r => r.2.dispose 3 >>= fun w => w.content 4) =
    .ok (4, 2, 1048576, 0, 0, [1, 2, 3, 4, 5, 6, 7, 8]) := rfl

/-- Sequence `q` of the blocks `h'` plays like sequence `p` of the blocks `h`. -/
def SamePlay (h : SeqBlocks) (p : Nat) (h' : SeqBlocks) (q : Nat) : Prop :=
  ∀ st ops, h'.run q st ops = h.run p st ops

/-- A sequence that can be played: its block exists and the block of its values as well. -/
def SeqBlocks.Live (h : SeqBlocks) (p : Nat) : Prop := ∃ b v, h.get p = .ok b ∧ h.get b.values = .ok v

theorem SeqBlocks.get_append {h : SeqBlocks} {p : Nat} {b : SeqBlock} (hg : h.get p = .ok b) (t : SeqBlocks) :
    SeqBlocks.get (h ++ t) p = .ok b := by
  unfold SeqBlocks.get at hg ⊢
  cases hp : h[p]? with
  | none => rw [hp] at hg; cases hg
  | some x =>
    rw [hp] at hg
    rw [List.getElem?_append_left (List.getElem?_eq_some_iff.1 hp).1, hp]
    exact hg

/-- Allocating more does not change what a sequence plays. -/
theorem SeqBlocks.Live.append {h : SeqBlocks} {p : Nat} (hl : h.Live p) (t : SeqBlocks) :
    SeqBlocks.Live (h ++ t) p ∧ SamePlay h p (h ++ t) p := by
  obtain ⟨b, v, h1, h2⟩ := hl
  have g1 := SeqBlocks.get_append h1 t
  have g2 := SeqBlocks.get_append h2 t
  exact ⟨⟨b, v, g1, g2⟩, fun st ops => by rw [SeqBlocks.run_eq g1 g2, SeqBlocks.run_eq h1 h2]⟩

/-- A copy of a sequence plays the same. -/
theorem SeqBlocks.Live.copy {h : SeqBlocks} {p : Nat} (hl : h.Live p) :
    ∃ B, h.copy p = .ok (h ++ [some B], h.length) ∧ SamePlay h p (h ++ [some B]) h.length ∧
      SeqBlocks.Live (h ++ [some B]) h.length := by
  obtain ⟨b, v, h1, h2⟩ := hl
  refine ⟨{ b with data := [] }, ?_, ?_⟩
  · unfold SeqBlocks.copy
    rw [h1, ok_bind, h2]
    rfl
  · have g1 : SeqBlocks.get (h ++ [some { b with data := [] }]) h.length = .ok { b with data := [] } := by
      unfold SeqBlocks.get
      rw [List.getElem?_append_right (Nat.le_refl _), Nat.sub_self]
      rfl
    have g2 := SeqBlocks.get_append h2 [some { b with data := [] }]
    exact ⟨fun st ops => by rw [SeqBlocks.run_eq g1 (v := v) g2, SeqBlocks.run_eq h1 h2], ⟨_, v, g1, g2⟩⟩

/-- State of the copying loop after the slots below `n`. -/
structure CopyLoop (o g : IObj) (h : SeqBlocks) (n : Nat) (s : IObj × SeqBlocks) : Prop where
  more : ∃ t, s.2 = h ++ t
  init : s.1.init = false
  isa : s.1.isa = g.isa
  num : s.1.numSequences = o.numSequences
  list : s.1.stateList = g.stateList
  kept : ∀ i, n ≤ i ∨ o.sequences i = none → s.1.sequences i = g.sequences i
  made : ∀ i p, i < n → o.sequences i = some p → ∃ q, s.1.sequences i = some q ∧ h.length ≤ q ∧ SeqBlocks.Live s.2 q ∧
    SamePlay h p s.2 q
  apart : ∀ i j p p' q, i < n → j < n → o.sequences i = some p → o.sequences j = some p' →
    s.1.sequences i = some q → s.1.sequences j = some q → i = j
  bound : ∀ i p q, i < n → o.sequences i = some p → s.1.sequences i = some q → q < s.2.length

theorem SamePlay.trans {h h' h'' : SeqBlocks} {p q r : Nat} (a : SamePlay h p h' q) (b : SamePlay h' q h'' r) :
    SamePlay h p h'' r := fun st ops => (b st ops).trans (a st ops)

theorem CopyLoop.step {o g : IObj} {h : SeqBlocks} {n : Nat} {s : IObj × SeqBlocks} (hs : CopyLoop o g h n s)
    (ho : ∀ i p, o.sequences i = some p → h.Live p) :
    ∃ s', o.copySlot s n = .ok s' ∧ CopyLoop o g h (n + 1) s' := by
  unfold IObj.copySlot
  cases hn : o.sequences n with
  | none =>
    refine ⟨s, rfl, hs.more, hs.init, hs.isa, hs.num, hs.list, ?_, ?_, ?_, ?_⟩
    · intro i hi
      by_cases e : i = n
      · subst e; exact hs.kept i (.inr hn)
      · exact hs.kept i (hi.imp (by omega) id)
    · intro i p hi hp
      have : i ≠ n := fun e => by rw [e, hn] at hp; cases hp
      exact hs.made i p (by omega) hp
    · intro i j p p' q hi hj hp hp'
      have : i ≠ n := fun e => by rw [e, hn] at hp; cases hp
      have : j ≠ n := fun e => by rw [e, hn] at hp'; cases hp'
      exact hs.apart i j p p' q (by omega) (by omega) hp hp'
    · intro i p q hi hp
      have : i ≠ n := fun e => by rw [e, hn] at hp; cases hp
      exact hs.bound i p q (by omega) hp
  | some p =>
    obtain ⟨t, ht⟩ := hs.more
    have l1 := (ho n p hn).append t
    rw [← ht] at l1
    obtain ⟨B, c1, c2, c3⟩ := l1.1.copy
    dsimp only
    rw [c1, ok_bind]
    refine ⟨_, rfl, ⟨t ++ [some B], by dsimp only; rw [ht, List.append_assoc]⟩, hs.init, hs.isa, hs.num, hs.list,
      ?_, ?_, ?_, ?_⟩
    · intro i hi
      dsimp only
      have : i ≠ n := fun e => by subst e; rw [hn] at hi; rcases hi with hi | hi; omega; cases hi
      rw [upd_ne _ _ this]
      exact hs.kept i (hi.imp (by omega) id)
    · intro i p' hi hp'
      dsimp only
      by_cases e : i = n
      · subst e
        rw [hn] at hp'
        cases hp'
        refine ⟨_, upd_self _ _ _, ?_, c3, l1.2.trans c2⟩
        rw [ht, List.length_append]; omega
      · rw [upd_ne _ _ e]
        obtain ⟨q, q1, q2, q3, q4⟩ := hs.made i p' (by omega) hp'
        have := q3.append [some B]
        exact ⟨q, q1, q2, this.1, q4.trans this.2⟩
    · intro i j p1 p2 q hi hj h1 h2
      dsimp only
      intro h3 h4
      by_cases e : i = n
      · by_cases e' : j = n
        · omega
        · subst e
          rw [upd_self] at h3
          rw [upd_ne _ _ e'] at h4
          have := hs.bound j p2 q (by omega) h2 h4
          have := Option.some.inj h3
          omega
      · rw [upd_ne _ _ e] at h3
        by_cases e' : j = n
        · subst e'
          rw [upd_self] at h4
          have := hs.bound i p1 q (by omega) h1 h3
          have := Option.some.inj h4
          omega
        · rw [upd_ne _ _ e'] at h4
          exact hs.apart i j p1 p2 q (by omega) (by omega) h1 h2 h3 h4
    · intro i p' q hi hp'
      dsimp only
      intro h3
      rw [List.length_append, List.length_singleton]
      by_cases e : i = n
      · subst e
        rw [upd_self] at h3
        have := Option.some.inj h3
        omega
      · rw [upd_ne _ _ e] at h3
        have := hs.bound i p' q (by omega) hp' h3
        omega

theorem CopyLoop.run {o g : IObj} {h : SeqBlocks} (ho : ∀ i p, o.sequences i = some p → h.Live p) (n : Nat) :
    ∃ s, (List.range n).foldlM o.copySlot ({ g with init := false, numSequences := o.numSequences }, h) = .ok s ∧
      CopyLoop o g h n s := by
  induction n with
  | zero =>
    exact ⟨_, rfl, ⟨[], by simp⟩, rfl, rfl, rfl, rfl, fun _ _ => rfl, fun i p hi => absurd hi (by omega),
      fun i j p p' q hi => absurd hi (by omega), fun i p q hi => absurd hi (by omega)⟩
  | succ n ih =>
    obtain ⟨s, e, hs⟩ := ih
    obtain ⟨s', e', hs'⟩ := hs.step ho
    refine ⟨s', ?_, hs'⟩
    rw [List.range_succ, List.foldlM_append, e, ok_bind]
    rw [List.foldlM_cons, e', ok_bind]
    rfl

/-- **C88** (instruments; partial: the copy is not a complete object, and its memory has to be cleared before, see
`C88_refuted_instrument`).  Copying an instrument into memory that has been cleared gives an instrument that no track
uses, with a sequence of its own in the slots where the original has one and none elsewhere; each one plays like that
of the original, and those of the original still play the same. -/
theorem C88_instrument_partial {o g : IObj} {h : SeqBlocks} (ho : ∀ i p, o.sequences i = some p → h.Live p)
    (hn : ∀ i p, o.sequences i = some p → i < o.numSequences) (hg : g.stateList = none)
    (hg' : ∀ i, g.sequences i = none) : ∃ c h', o.initCopy g h = .ok (c, h') ∧ c.stateList = none ∧
      c.numSequences = o.numSequences ∧ (∀ i, c.sequences i = none ↔ o.sequences i = none) ∧
      (∀ i p, o.sequences i = some p → ∃ q, c.sequences i = some q ∧ SamePlay h p h' q ∧ SamePlay h p h' p ∧
        (∀ j, o.sequences j ≠ some q) ∧ ∀ j, c.sequences j = some q → j = i) := by
  obtain ⟨s, e, hs⟩ := CopyLoop.run (g := g) ho o.numSequences
  have fill : ∀ i, s.1.sequences i = none ↔ o.sequences i = none := by
    intro i
    cases hi : o.sequences i with
    | none => rw [hs.kept i (.inr hi), hg' i]
    | some p =>
      obtain ⟨q, q1, -⟩ := hs.made i p (hn i p hi) hi
      rw [q1]
      simp
  refine ⟨s.1, s.2, e, by rw [hs.list, hg], hs.num, fill, fun i p hp => ?_⟩
  obtain ⟨q, q1, q2, q3, q4⟩ := hs.made i p (hn i p hp) hp
  obtain ⟨t, ht⟩ := hs.more
  refine ⟨q, q1, q4, ?_, ?_, ?_⟩
  · rw [ht]; exact ((ho i p hp).append t).2
  · intro j hj
    obtain ⟨b, v, g1, -⟩ := ho j q hj
    unfold SeqBlocks.get at g1
    rw [List.getElem?_eq_none q2] at g1
    cases g1
  · intro j hj
    cases h2 : o.sequences j with
    | none => rw [(fill j).2 h2] at hj; cases hj
    | some p' => exact hs.apart j i p' p q (hn j p' h2) (hn i p hp) h2 hp hj q1

/-- **C88** does not hold for instruments: the copy keeps whatever was in its memory before as list of users and as
sequences in slots where the original has none, and disposing of the copy has no effect, so that its sequences stay
allocated. -/
theorem C88_refuted_instrument {o g : IObj} {h : SeqBlocks} (ho : ∀ i p, o.sequences i = some p → h.Live p) :
    ∃ c h', o.initCopy g h = .ok (c, h') ∧ c.stateList = g.stateList ∧ c.isa = g.isa ∧
      (∀ i, o.sequences i = none → c.sequences i = g.sequences i) ∧ c.dispose h' = .ok (c, h') ∧
      ∀ i p q, i < o.numSequences → o.sequences i = some p → c.sequences i = some q → SeqBlocks.Live h' q := by
  obtain ⟨s, e, hs⟩ := CopyLoop.run (g := g) ho o.numSequences
  refine ⟨s.1, s.2, e, hs.list, hs.isa, fun i hi => hs.kept i (.inr hi), ?_, ?_⟩
  · unfold IObj.dispose
    rw [hs.init]
    rfl
  · intro i p q hi hp hq
    obtain ⟨q', q1, -, q3, -⟩ := hs.made i p hi hp
    rw [hq] at q1
    cases q1
    exact q3

/-- An instrument with sequences for volume and pitch. -/
def instrExample : IObj :=
  { init := true, isa := true, numSequences := 3, stateList := some 9
    sequences := fun i => if i = 0 then some 0 else if i = 2 then some 1 else none }

/-- Its sequences. -/
def instrBlocks : SeqBlocks := [some ⟨2, 2, 0, 0, [5, 6]⟩, some ⟨1, 1, 0, 1, [7]⟩]

example : (∀ i p, instrExample.sequences i = some p → instrBlocks.Live p) ∧
    ∀ i p, instrExample.sequences i = some p → i < instrExample.numSequences := by
  have key : ∀ i p, instrExample.sequences i = some p → (i = 0 ∧ p = 0) ∨ (i = 2 ∧ p = 1) := by
    intro i p h
    have h : (if i = 0 then some 0 else if i = 2 then some 1 else none) = some p := h
    split at h
    · exact .inl ⟨by assumption, (Option.some.inj h).symm⟩
    split at h
    · exact .inr ⟨by assumption, (Option.some.inj h).symm⟩
    · cases h
  refine ⟨fun i p h => ?_, fun i p h => ?_⟩
  · rcases key i p h with ⟨-, rfl⟩ | ⟨-, rfl⟩
    · exact ⟨_, _, rfl, rfl⟩
    · exact ⟨_, _, rfl, rfl⟩
  · rcases key i p h with ⟨rfl, -⟩ | ⟨rfl, -⟩ <;> decide

/-- A copy into memory that was not cleared has users that do not exist. -/
example : ∃ c h', instrExample.initCopy { stateList := some 77 } instrBlocks = .ok (c, h') ∧ c.stateList = some 77 :=
  ⟨_, _, rfl, rfl⟩

end BK
