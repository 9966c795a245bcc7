import Verif.Lemmas.IRun
import Verif.Spec.TrackSafe
/-!
The values of instrument sequences are limited, so that tracks can use them without overflow.
-/
namespace BK

/-- Bound on the current value of slots 0 to 2. -/
def valLimit (k : Nat) : Int := if k = 2 then 536870912 else 32768

def Sequence.Modest (k : Nat) : Sequence → Prop
  | .simple q => k < 3 → ∀ v ∈ q.values, -valLimit k ≤ v ∧ v ≤ valLimit k
  | .env q => (k < 3 → 1073741824 ≤ valLimit k * 2 ^ q.fracShift) ∧ (k = 3 → q.fracShift ≤ 26)

theorem seqLimit_lt (k : Nat) : seqLimit k < valLimit k := by
  unfold seqLimit valLimit; split <;> omega

theorem two_pow_mono {a b : Nat} (h : a ≤ b) : (2 : Int) ^ a ≤ 2 ^ b := by
  obtain ⟨c, rfl⟩ := Nat.exists_eq_add_of_le h
  have h1 := two_pow_pos a
  have h2 := two_pow_pos c
  have := Int.mul_le_mul_of_nonneg_left (show 1 ≤ (2 : Int) ^ c by omega) (show 0 ≤ (2 : Int) ^ a by omega)
  rw [Int.pow_add]; omega

theorem fracShift_low {ps : List EnvPoint} {fs n : Nat} (hn : n ≤ 29) (h : fracShiftOf ps = .ok fs)
    (hv : ∀ p ∈ ps, -(2 : Int) ^ n < p.value ∧ p.value < 2 ^ n) : 30 - n ≤ fs := by
  have hn2 : (2 : Int) ^ n ≤ 2 ^ 29 := two_pow_mono hn
  have e29 : (2 : Int) ^ 29 = 536870912 := by decide +kernel
  have hp := two_pow_pos n
  obtain ⟨m, h1, h2, h3, h4⟩ := maxAbs_spec ps (2 ^ n - 1) (by omega)
    (fun p hp => by have := hv p hp; omega) 0 (by omega) (by omega)
  unfold fracShiftOf at h
  rw [h1, ok_bind] at h
  cases h
  obtain ⟨-, -, -, f4⟩ := fracLoop_spec m 30 0
  generalize fracLoop m 30 0 = s at *
  by_cases hs : s ≤ n
  · omega
  · have := f4 (by omega)
    have : (2 : Int) ^ n ≤ 2 ^ (s - 1) := two_pow_mono (by omega)
    omega

theorem fracShift_high {ps : List EnvPoint} {fs : Nat} (h : fracShiftOf ps = .ok fs)
    (hv : ∀ p ∈ ps, -1073741824 < p.value ∧ p.value < 1073741824)
    (hb : ∃ p ∈ ps, p.value ≤ -8 ∨ 8 ≤ p.value) : fs ≤ 26 := by
  obtain ⟨m, h1, h2, h3, h4⟩ := maxAbs_spec ps 1073741823 (by omega)
    (fun p hp => by have := hv p hp; omega) 0 (by omega) (by omega)
  unfold fracShiftOf at h
  rw [h1, ok_bind] at h
  cases h
  obtain ⟨-, -, f3, -⟩ := fracLoop_spec m 30 0
  have f3 := f3 (by simp; omega)
  generalize fracLoop m 30 0 = s at *
  obtain ⟨p, hp, hb⟩ := hb
  have := h4 p hp
  by_cases hs : 4 ≤ s
  · omega
  · have : (2 : Int) ^ s ≤ 2 ^ 3 := two_pow_mono (by omega)
    omega

theorem SimpleSeq.create_values {vals : List Int} {so sl : Int} {q : SimpleSeq}
    (h : SimpleSeq.create vals so sl = .ok (some q)) : ∀ v ∈ q.values, v ∈ vals := by
  unfold SimpleSeq.create at h
  dsimp only at h
  obtain ⟨g, -, h⟩ := bind_ok_iff.1 h
  by_cases hg : g = true
  · rw [if_pos hg] at h
    simp only [pure_eq_ok, Except.ok.injEq, Option.some.injEq] at h
    rw [← h]
    intro v hv
    dsimp only at hv
    generalize (wrapI32 _ / 4).toNat = n at hv
    exact List.mem_of_mem_take hv
  · rw [if_neg hg] at h
    cases h

theorem NewSeq.create_modest {new : NewSeq} {k : Nat} (hs : new.Short) (hu : new.Usual) (hm : new.Modest k)
    {q : Sequence} (h : new.create = .ok (some (some q))) : q.Modest k := by
  cases new with
  | nothing => cases h
  | values vals so sl =>
    unfold NewSeq.create at h
    dsimp only at h
    split at h
    · cases h
    · obtain ⟨r, hr, h⟩ := bind_ok_iff.1 h
      cases r with
      | none => cases h
      | some r =>
        cases h
        intro hk v hv
        have := hm hk v (SimpleSeq.create_values hr v hv)
        have := seqLimit_lt k
        omega
  | points ps so sl =>
    unfold NewSeq.create at h
    dsimp only at h
    split at h
    · cases h
    · rename_i hne
      obtain ⟨r, hr, h⟩ := bind_ok_iff.1 h
      cases r with
      | none => cases h
      | some r =>
        cases h
        obtain ⟨h1, h2, h3, h4⟩ := hs
        obtain ⟨-, -, hf⟩ := EnvSeq.create_W h1 h2 h3 h4 hr
        refine ⟨fun hk => ?_, fun hk => ?_⟩
        · unfold valLimit
          have hm := hm.1 hk
          unfold seqLimit at hm
          split
          · rename_i hk2
            simp only [hk2, if_true] at hm
            have := fracShift_low (n := 29) (by omega) hf fun p hp => by have := hm p hp; omega
            have := two_pow_mono this
            omega
          · rename_i hk2
            simp only [hk2, if_false] at hm
            have := fracShift_low (n := 15) (by omega) hf fun p hp => by have := hm p hp; omega
            have := two_pow_mono this
            omega
        · exact fracShift_high hf hu.vals (hm.2 hk hne)

/-- All instruments and states are in order, no list of users is longer than `n`. -/
structure IWorld.Sound (w : IWorld) (A : Lists) : Prop where
  inv : w.Inv True A
  seqs : ∀ i k id q, (w.instrs i).sequences k = some id → w.heap id = some q → q.Modest k

def IWorld.Good (n : Nat) (w : IWorld) : Prop := ∃ A, w.Sound A ∧ ∀ d, (A d).length ≤ n

theorem IWorld.Good.mono {m n : Nat} {w : IWorld} (h : w.Good m) (hmn : m ≤ n) : w.Good n := by
  obtain ⟨A, h1, h2⟩ := h
  exact ⟨A, h1, fun d => Nat.le_trans (h2 d) hmn⟩

theorem IWorld.Good.init (n : Nat) : ({} : IWorld).Good n :=
  ⟨fun _ => [], ⟨IWorld.Inv.init True, fun i k id q h => by cases h⟩, fun _ => Nat.zero_le _⟩

theorem IWorld.Sound.keep {w w' : IWorld} {A A' : Lists} (h : w.Sound A) (hi : w'.Inv True A')
    (e1 : w'.instrs = w.instrs) (e2 : w'.heap = w.heap) : w'.Sound A' :=
  ⟨hi, fun i k id q h1 h2 => h.seqs i k id q (by rw [← e1]; exact h1) (by rw [← e2]; exact h2)⟩

theorem ediv_bound {s l : Int} {k : Nat} (h1 : -1073741824 ≤ s) (h2 : s ≤ 1073741824)
    (hl : 1073741824 ≤ l * 2 ^ k) : -l ≤ s / 2 ^ k ∧ s / 2 ^ k ≤ l := by
  have hp := two_pow_pos k
  generalize (2 : Int) ^ k = P at *
  constructor
  · refine (Int.le_ediv_iff_mul_le (by omega)).2 ?_
    rw [Int.neg_mul]; omega
  · refine Int.ediv_le_of_le_mul (by omega) ?_
    omega

theorem IWorld.Good.value {n : Nat} {w : IWorld} (h : w.Good n) {x k : Nat} (hx : w.on x = true)
    (hk : k < 3) : -valLimit k ≤ w.value x k ∧ w.value x k ≤ valLimit k := by
  obtain ⟨A, h, -⟩ := h
  unfold IWorld.on at hx
  obtain ⟨i, hi⟩ := Option.isSome_iff_exists.1 hx
  have ha := (h.inv.att x i hi).has
  have hl : 32768 ≤ valLimit k := by unfold valLimit; split <;> omega
  unfold IWorld.value
  have hv := ha.val k hk
  have hpt := ha.pt k (by omega)
  cases e : (w.instrs i).sequences k with
  | none =>
    rw [hv.1 (by rw [hpt]; exact e)]
    unfold seqDefault
    split <;> omega
  | some id =>
    obtain ⟨_, _, q, hq, -⟩ := h.inv.live i k id e
    have hm := h.seqs i k id q e hq
    cases q with
    | simple q =>
      rcases hv.2.1 id q (by rw [hpt]; exact e) hq with h0 | h0
      · rw [h0]; omega
      · exact hm hk _ h0
    | env q =>
      have hs := (((ha.slot k id _ (by omega) e hq).env q rfl).num trivial).1
      rw [hs.eq]
      exact ediv_bound hs.sh.1 hs.sh.2 (hm.1 hk)

theorem IWorld.Good.duty {n : Nat} {w : IWorld} (h : w.Good n) {d : Int} (h0 : 0 ≤ d) (h1 : d ≤ 15)
    (i : Nat) : w.DutyFits i d := by
  obtain ⟨A, h, -⟩ := h
  intro id q e1 e2
  have hm := h.seqs i 3 id q e1 e2
  cases q with
  | simple q => trivial
  | env q =>
    have := hm.2 rfl
    have hp := two_pow_pos q.fracShift
    have : (2 : Int) ^ q.fracShift ≤ 2 ^ 26 := two_pow_mono this
    have e26 : (2 : Int) ^ 26 = 67108864 := by decide +kernel
    have := Int.mul_le_mul h1 this (by omega) (by omega)
    have := Int.mul_nonneg h0 (show 0 ≤ (2 : Int) ^ q.fracShift by omega)
    show -1073741824 ≤ d * 2 ^ q.fracShift ∧ d * 2 ^ q.fracShift ≤ 1073741824
    omega

theorem IWorld.Good.setPhase {n : Nat} {w : IWorld} (h : w.Good n) (x : Nat) (p : SeqPhase) :
    Safe True (w.setPhase x p) (fun w' => w'.Good n ∧ w'.links = w.links) := by
  obtain ⟨A, h, hl⟩ := h
  refine (IWorld.setPhase_inv h.inv x p).mono ?_
  rintro w' ⟨h1, s, l, rfl⟩
  exact ⟨⟨A, h.keep h1 rfl rfl, hl⟩, rfl⟩

theorem IWorld.Good.tick {n : Nat} {w : IWorld} (h : w.Good n) {x : Nat} (hx : w.on x = true) (d : Bool) :
    Safe True (w.tick x d) (fun w' => w'.Good n ∧ w'.links = w.links) := by
  obtain ⟨A, h, hl⟩ := h
  have hx' : w.links.owner x ≠ none := by
    intro e; unfold IWorld.on at hx; rw [e] at hx; cases hx
  refine (IWorld.tick_inv h.inv x d hx').mono ?_
  rintro w' ⟨h1, s, l, rfl⟩
  exact ⟨⟨A, h.keep h1 rfl rfl, hl⟩, rfl⟩

theorem IWorld.Good.initValues {n : Nat} {w : IWorld} (h : w.Good n) (x : Nat) {d : Int} (h0 : 0 ≤ d)
    (h1 : d ≤ 15) : Safe True (w.initValues x d) (fun w' => w'.Good n ∧ w'.links = w.links) := by
  have hd := h.duty h0 h1
  obtain ⟨A, h, hl⟩ := h
  refine (IWorld.initValues_inv h.inv x d fun _ i _ => hd i).mono ?_
  rintro w' ⟨h1, s, rfl⟩
  exact ⟨⟨A, h.keep h1 rfl rfl, hl⟩, rfl⟩

theorem IWorld.Good.attack {n : Nat} {w : IWorld} (h : w.Good n) (x : Nat) {d : Int} (h0 : 0 ≤ d)
    (h1 : d ≤ 15) : Safe True (w.attack x d) (fun w' => w'.Good n ∧ w'.links = w.links) := by
  unfold IWorld.attack
  refine (h.initValues x h0 h1).bind ?_
  rintro w1 ⟨h1, e1⟩
  refine (h1.setPhase x .attack).mono ?_
  rintro w2 ⟨h2, e2⟩
  exact ⟨h2, e2.trans e1⟩

theorem IWorld.Good.setInstrument {n : Nat} {w : IWorld} (h : w.Good n) (x i : Nat) :
    Safe True (w.setInstrument x (some i)) (fun w' => w'.Good (n + 1) ∧ w'.links.owner x = some i) := by
  obtain ⟨A, h, hl⟩ := h
  refine (IWorld.setInstrument_inv h.inv x i).mono ?_
  rintro w' ⟨h1, s, rfl⟩
  refine ⟨⟨_, h.keep h1 rfl rfl, fun d => ?_⟩, ?_⟩
  · have h2 := List.length_filter_le (· ≠ x) (A d)
    have h3 := hl d
    split
    · rename_i hd; subst hd; simp only [List.length_cons]; omega
    · omega
  · show ((w.links.removeState x).addState x i).owner x = _
    rw [Links.owner_addState _ _ _ _ (by rw [Links.owner_removeState, if_pos rfl]), if_pos rfl]

theorem IWorld.Good.unset {n : Nat} {w : IWorld} (h : w.Good n) (x : Nat) :
    Safe True (w.setInstrument x none) (fun w' => w'.Good n ∧ w'.links.owner x = none) := by
  obtain ⟨A, h, hl⟩ := h
  refine Safe.ok ⟨⟨_, h.keep (IWorld.unset_inv h.inv x w.log) rfl rfl, fun d => ?_⟩, ?_⟩
  · have h2 := List.length_filter_le (· ≠ x) (A d)
    have h3 := hl d
    omega
  · show (w.links.removeState x).owner x = _
    rw [Links.owner_removeState, if_pos rfl]

theorem IWorld.Good.wipe {n : Nat} {w : IWorld} (h : w.Good n) {x : Nat} (hx : w.links.owner x = none) :
    (w.wipe x).Good n := by
  obtain ⟨A, h, hl⟩ := h
  refine ⟨A, h.keep ?_ rfl rfl, hl⟩
  have hi := h.inv
  refine ⟨hi.repr, hi.num, hi.live, hi.inj, hi.noLeak, ?_, ?_⟩
  · intro y i hy
    have e : y ≠ x := by
      intro e; subst e
      have hy' : w.links.owner y = some i := hy
      rw [hx] at hy'; cases hy'
    show (upd w.states x {} y).Inv _ _ _
    rw [upd_ne _ _ e]; exact hi.att y i hy
  · intro y hy k hk
    show ((upd w.states x {} y).slots k).seq = none ∧ Weak True ((upd w.states x {} y).slots k).st
    by_cases e : y = x
    · subst e
      rw [upd_self]
      exact ⟨rfl, Weak.init True _⟩
    · rw [upd_ne _ _ e]; exact hi.idle y hy k hk

theorem IWorld.Good.setSequence {n fuel : Nat} {w : IWorld} (h : w.Good n) (i slot : Nat) {new : NewSeq}
    (hs : new.Short) (hu : new.Usual) (hm : new.Modest slot) (hf : n ≤ fuel) :
    Safe True (w.setSequence fuel i slot new) (fun r => r.2.Good n) := by
  have hg := h
  obtain ⟨A, h, hl⟩ := h
  unfold IWorld.setSequence
  split
  · rename_i hlt
    refine ((NewSeq.create_inv hs fun _ => hu).and_ok (Q := fun r => new.create = .ok r) fun _ e => e).bind ?_
    rintro r ⟨hr, er⟩
    cases r with
    | none => exact Safe.ok hg
    | some q =>
      refine (IWorld.replace_inv h.inv i slot fuel q hlt (fun q' e => hr q' (by rw [e]))
        (Nat.le_trans (hl i) hf)).bind ?_
      rintro w' ⟨h1, h2⟩
      refine Safe.ok ⟨A, ⟨h1, ?_⟩, hl⟩
      intro j k id q' e1 e2
      by_cases hjk : (j, k) = (i, slot)
      · cases hjk
        have hn := h2.new
        cases q with
        | none => rw [hn] at e1; cases e1
        | some q =>
          obtain ⟨id', a1, a2, -⟩ := hn
          rw [a1] at e1; cases e1
          rw [a2] at e2; cases e2
          exact NewSeq.create_modest hs hu hm er
      · have e1' : (w.instrs j).sequences k = some id := by
          by_cases hj : j = i
          · subst hj
            have hk : k ≠ slot := fun e => hjk (by rw [e])
            rw [← h2.seqs k hk]; exact e1
          · rw [← h2.others j hj]; exact e1
        rw [h2.kept j k id hjk e1'] at e2
        exact h.seqs j k id q' e1' e2
  · exact Safe.ok hg

theorem IWorld.Good.detach {n fuel : Nat} {w : IWorld} (h : w.Good n) (i : Nat) (hf : n ≤ fuel) :
    Safe True (w.detach fuel i) (fun w' => w'.Good n) := by
  obtain ⟨A, h, hl⟩ := h
  obtain ⟨w', A', e, h1, h2, h3, h4⟩ := IWorld.detach_inv h.inv i fuel (Nat.le_trans (hl i) hf)
  rw [e]
  refine Safe.ok ⟨A', h.keep h1 h4.instrs h4.heap, fun d => ?_⟩
  by_cases hd : d = i
  · subst hd; rw [h2]; simp
  · rw [h3 d hd]; exact hl d

theorem IWorld.Good.dispose {n fuel : Nat} {w : IWorld} (h : w.Good n) (i : Nat) (hf : n ≤ fuel) :
    Safe True (w.dispose fuel i) (fun w' => w'.Good n) := by
  obtain ⟨A, h, hl⟩ := h
  obtain ⟨w', A', e, h1, h2, h3, h4⟩ := IWorld.dispose_inv h.inv i fuel (Nat.le_trans (hl i) hf)
  rw [e]
  refine Safe.ok ⟨A', ⟨h1, ?_⟩, fun d => ?_⟩
  · intro j k id q e1 e2
    by_cases hj : j = i
    · subst hj; rw [h4.gone] at e1; cases e1
    · rw [h4.others j hj] at e1
      rw [h4.kept id fun m e => hj (h.inv.inj j k i m id e1 e).1] at e2
      exact h.seqs j k id q e1 e2
  · by_cases hd : d = i
    · subst hd; rw [h2]; simp
    · rw [h3 d hd]; exact hl d

end BK
