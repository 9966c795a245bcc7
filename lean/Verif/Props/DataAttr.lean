import Verif.Spec.DataAttr
import Verif.Lemmas.TrackNote
import Mathlib.Data.List.Induction
/-!
C90: data objects report what they were given.
-/
namespace BK

theorem cclamp_48 (v : Int) : cclamp v (-48 * U20) (48 * U20) = max (-50331648) (min 50331648 v) := by
  unfold cclamp
  split <;> (try split) <;> omega

theorem dataPos_eq {n v : Int} (hn : 0 ≤ n) (hn' : n ≤ 2147483646) (hv : InI32 v) : dataPos n v = .ok (position n v) := by
  unfold InI32 at hv
  unfold dataPos position
  by_cases h : v < 0
  · rw [if_pos h, if_pos h, i32_ok (by omega) (by omega), ok_bind, i32_ok (by omega) (by omega), ok_bind]
    show Except.ok _ = _
    congr 1
    unfold cclamp
    split <;> (try split) <;> omega
  · rw [if_neg h, if_neg h, ok_bind]
    show Except.ok _ = _
    congr 1
    unfold cclamp
    split <;> (try split) <;> omega

theorem position_range {n v : Int} (hn : 0 ≤ n) : 0 ≤ position n v ∧ position n v ≤ n := by
  unfold position
  split <;> omega

theorem position_self {n v : Int} (h : 0 ≤ v ∧ v ≤ n) : position n v = v := by
  unfold position
  split <;> omega

theorem DObj.setRange_eq {o : DObj} (hn : o.numFrames ≤ 2147483646) {v : Option (Int × Int)} (hv : ∀ r, v = some r → InI32 r.1 ∧ InI32 r.2) :
    o.setRange v = .ok { o with sustainOffset := (rangeOf o.numFrames v).1, sustainEnd := (rangeOf o.numFrames v).2 } ∧
      0 ≤ (rangeOf o.numFrames v).1 ∧ (rangeOf o.numFrames v).1 ≤ (rangeOf o.numFrames v).2 ∧ (rangeOf o.numFrames v).2 ≤ o.numFrames := by
  have hw : wrapI32 (o.numFrames : Int) = o.numFrames := by unfold wrapI32; omega
  have hu : ∀ x : Int, 0 ≤ x → x ≤ o.numFrames → wrapU32 x = x := fun x h h' => by unfold wrapU32; omega
  have zero : position o.numFrames 0 = 0 := position_self (by omega)
  have empty : ∀ v, rangeOf (o.numFrames : Int) v = (0, 0) → rangeGiven v = (0, 0) → o.setRange v = .ok { o with sustainOffset := 0, sustainEnd := 0 } := by
    intro v _ h
    unfold DObj.setRange
    dsimp only
    rw [hw, h, dataPos_eq (by omega) (by omega) (by unfold InI32; omega), ok_bind, ok_bind, zero, if_neg (by omega), hu 0 (by omega) (by omega)]
    rfl
  cases v with
  | none => exact ⟨empty none rfl rfl, Int.le_refl 0, Int.le_refl 0, by show (0 : Int) ≤ _; omega⟩
  | some r =>
    obtain ⟨a, b⟩ := r
    obtain ⟨h1, h2⟩ := hv _ rfl
    dsimp only at h1 h2
    by_cases hab : a = b
    · have e : rangeOf (o.numFrames : Int) (some (a, b)) = (0, 0) := if_pos hab
      rw [e]
      exact ⟨empty _ e (if_pos hab), by omega, by omega, by dsimp only; omega⟩
    · have e : rangeOf (o.numFrames : Int) (some (a, b)) = (min (position o.numFrames a) (position o.numFrames b),
          max (position o.numFrames a) (position o.numFrames b)) := if_neg hab
      rw [e]
      have p1 := position_range (n := o.numFrames) (v := a) (by omega)
      have p2 := position_range (n := o.numFrames) (v := b) (by omega)
      refine ⟨?_, by dsimp only; omega, by dsimp only; omega, by dsimp only; omega⟩
      unfold DObj.setRange
      have e3 : rangeGiven (some (a, b)) = (a, b) := if_neg hab
      dsimp only
      rw [hw, e3]
      dsimp only
      rw [dataPos_eq (by omega) (by omega) h1, ok_bind, dataPos_eq (by omega) (by omega) h2, ok_bind, pure_eq_ok]
      refine congrArg Except.ok ?_
      split
      · rw [hu _ p1.1 p1.2, hu _ p2.1 p2.2, Int.min_eq_right (by omega), Int.max_eq_left (by omega)]
      · rw [hu _ p1.1 p1.2, hu _ p2.1 p2.2, Int.min_eq_left (by omega), Int.max_eq_right (by omega)]

/-- C90: a range that is set is accepted and reported as two positions within the frames, in order; negative positions
count from the end; without a range, or with equal ends, it is empty.  Setting a range that is reported changes
nothing, unless it is empty.  Frames, channels and pitch stay the same. -/
theorem C90_range {o : DObj} (hn : o.numFrames ≤ 2147483646) {v : Option (Int × Int)} (hv : ∀ r, v = some r → InI32 r.1 ∧ InI32 r.2) :
    ∃ o', o.setRange v = .ok o' ∧ o'.getRange = rangeOf o.numFrames v ∧
      0 ≤ o'.getRange.1 ∧ o'.getRange.1 ≤ o'.getRange.2 ∧ o'.getRange.2 ≤ o.numFrames ∧
      (o'.getRange.1 ≠ o'.getRange.2 → o'.setRange (some o'.getRange) = .ok o') ∧ ∀ a, o'.getAttr a = o.getAttr a := by
  obtain ⟨e, h1, h2, h3⟩ := DObj.setRange_eq hn hv
  have hg : ∀ o' : DObj, o'.sustainOffset = (rangeOf o.numFrames v).1 → o'.sustainEnd = (rangeOf o.numFrames v).2 →
      o'.getRange = rangeOf o.numFrames v := by
    intro o' e1 e2
    unfold DObj.getRange
    rw [e1, e2]
    have w1 : wrapI32 (rangeOf o.numFrames v).1 = (rangeOf o.numFrames v).1 := by unfold wrapI32; omega
    have w2 : wrapI32 (rangeOf o.numFrames v).2 = (rangeOf o.numFrames v).2 := by unfold wrapI32; omega
    rw [w1, w2]
  refine ⟨_, e, hg _ rfl rfl, ?_⟩
  rw [hg _ rfl rfl]
  refine ⟨h1, h2, h3, fun hne => ?_, fun a => by cases a <;> rfl⟩
  have k := DObj.setRange_eq (o := { o with sustainOffset := (rangeOf o.numFrames v).1, sustainEnd := (rangeOf o.numFrames v).2 }) hn
    (v := some (rangeOf o.numFrames v)) (by
      intro r hr
      cases hr
      unfold InI32
      omega)
  rw [k.1]
  have e2 : rangeOf (o.numFrames : Int) (some (rangeOf o.numFrames v)) = rangeOf o.numFrames v := by
    generalize rangeOf (o.numFrames : Int) v = r at *
    obtain ⟨a, b⟩ := r
    dsimp only at h1 h2 h3 hne
    refine (if_neg hne).trans ?_
    rw [position_self (by omega), position_self (by omega), Int.min_eq_left h2, Int.max_eq_right h2]
  dsimp only
  rw [e2]

/-- Arguments that the types of C allow. -/
def DOp.Typed : DOp → Prop
  | .attr _ v => InI32 v
  | .range v => ∀ r, v = some r → InI32 r.1 ∧ InI32 r.2
  | .frames n _ => n ≤ 2147483646

/-- What is kept: the settings are those of the last calls. -/
structure DObj.Set (ops : List DOp) (o : DObj) : Prop where
  frames : (o.numFrames, o.numChannels) = (framesSet ops).getD (0, 0)
  small : o.numFrames ≤ 2147483646
  few : o.numChannels ≤ 8
  pitch : o.samplePitch = ((pitchGiven ops).map fun v => max (-50331648) (min 50331648 v)).getD 0

theorem lastOf_snoc {α β : Type} (f : α → Option β) (l : List α) (x : α) :
    ((l ++ [x]).filterMap f).getLast? = (f x).or (l.filterMap f).getLast? := by
  rw [List.filterMap_append]
  cases h : f x with
  | none => rw [List.filterMap_cons_none h, List.filterMap_nil, List.append_nil]; rfl
  | some y => rw [List.filterMap_cons_some h, List.filterMap_nil, List.getLast?_append]; rfl

theorem DObj.after_set (ops : List DOp) (h : ∀ op ∈ ops, op.Typed) : ∃ o, DObj.after ops = .ok o ∧ o.Set ops := by
  induction ops using List.reverseRecOn with
  | nil => exact ⟨{}, rfl, rfl, by decide, by decide, rfl⟩
  | append_singleton ops op ih =>
    obtain ⟨o, e, k⟩ := ih fun x hx => h x (List.mem_append_left _ hx)
    have ht := h op (List.mem_append_right _ (List.mem_singleton_self _))
    unfold DObj.after at e ⊢
    rw [List.foldlM_append, e, ok_bind, List.foldlM_cons]
    cases op with
    | attr a v =>
      refine ⟨(o.setAttr a v).2, rfl, ?_⟩
      have hf : framesSet (ops ++ [.attr a v]) = framesSet ops := lastOf_snoc _ ops _
      cases a
      case samplePitch =>
        have hp : pitchGiven (ops ++ [.attr .samplePitch v]) = some v := lastOf_snoc _ ops _
        exact ⟨by rw [hf]; exact k.frames, k.small, k.few, by rw [hp]; exact cclamp_48 v⟩
      case numFrames =>
        have hp : pitchGiven (ops ++ [.attr .numFrames v]) = pitchGiven ops := lastOf_snoc _ ops _
        exact ⟨by rw [hf]; exact k.frames, k.small, k.few, by rw [hp]; exact k.pitch⟩
      case numChannels =>
        have hp : pitchGiven (ops ++ [.attr .numChannels v]) = pitchGiven ops := lastOf_snoc _ ops _
        exact ⟨by rw [hf]; exact k.frames, k.small, k.few, by rw [hp]; exact k.pitch⟩
      case other =>
        have hp : pitchGiven (ops ++ [.attr .other v]) = pitchGiven ops := lastOf_snoc _ ops _
        exact ⟨by rw [hf]; exact k.frames, k.small, k.few, by rw [hp]; exact k.pitch⟩
    | range v =>
      have hf : framesSet (ops ++ [.range v]) = framesSet ops := lastOf_snoc _ ops _
      have hp : pitchGiven (ops ++ [.range v]) = pitchGiven ops := lastOf_snoc _ ops _
      have hs := (DObj.setRange_eq k.small ht).1
      refine ⟨{ o with sustainOffset := (rangeOf o.numFrames v).1, sustainEnd := (rangeOf o.numFrames v).2 }, ?_, ?_, k.small, k.few, ?_⟩
      · show (o.setRange v >>= _) = _
        rw [hs]
        rfl
      · rw [hf]; exact k.frames
      · rw [hp]; exact k.pitch
    | frames n c =>
      refine ⟨(o.newFrames n c).2, rfl, ?_⟩
      have hp : pitchGiven (ops ++ [.frames n c]) = pitchGiven ops := lastOf_snoc _ ops _
      have hf : framesSet (ops ++ [.frames n c]) = (if 2 ≤ n ∧ 1 ≤ c ∧ c ≤ 8 then some (n, c) else none).or (framesSet ops) :=
        lastOf_snoc _ ops _
      unfold DObj.newFrames
      unfold DOp.Typed at ht
      split
      · rename_i h1
        rw [if_neg (by omega), Option.none_or] at hf
        exact ⟨by rw [hf]; exact k.frames, k.small, k.few, by rw [hp]; exact k.pitch⟩
      · split
        · rw [if_neg (by omega), Option.none_or] at hf
          exact ⟨by rw [hf]; exact k.frames, k.small, k.few, by rw [hp]; exact k.pitch⟩
        · rw [if_pos (by omega)] at hf
          exact ⟨by rw [hf]; rfl, ht, by dsimp only; omega, by rw [hp]; exact k.pitch⟩

/-- C90: after any calls, a data object reports the frames and channels of the last call that set them and was accepted,
and the pitch that was given last, limited to 48 half tones up or down. -/
theorem C90_reported (ops : List DOp) (h : ∀ op ∈ ops, op.Typed) : ∃ o, DObj.after ops = .ok o ∧
    o.getAttr .numFrames = some (((framesSet ops).map (·.1)).getD 0 : Nat) ∧
    o.getAttr .numChannels = some (((framesSet ops).map (·.2)).getD 0 : Nat) ∧
    o.getAttr .samplePitch = some (((pitchGiven ops).map fun v => max (-50331648) (min 50331648 v)).getD 0) := by
  obtain ⟨o, e, k⟩ := DObj.after_set ops h
  have h1 := congrArg Prod.fst k.frames
  have h2 := congrArg Prod.snd k.frames
  dsimp only at h1 h2
  have k1 := k.small
  have k2 := k.few
  refine ⟨o, e, ?_, ?_, ?_⟩
  · have : wrapI32 (o.numFrames : Int) = o.numFrames := by unfold wrapI32; omega
    unfold DObj.getAttr
    dsimp only
    rw [this, h1]
    cases framesSet ops <;> rfl
  · have : wrapI32 (o.numChannels : Int) = o.numChannels := by unfold wrapI32; omega
    unfold DObj.getAttr
    dsimp only
    rw [this, h2]
    cases framesSet ops <;> rfl
  · unfold DObj.getAttr
    dsimp only
    rw [k.pitch]

/-- C90: the range that is reported is the last one that was set, in the frames that there were then, and lies within the
frames as long as these are not replaced. -/
theorem C90_range_kept_partial (ops rest : List DOp) (v : Option (Int × Int)) (h : ∀ op ∈ ops ++ .range v :: rest, op.Typed)
    (hr : ∀ op ∈ rest, ∀ w, op ≠ .range w) : ∃ o, DObj.after (ops ++ .range v :: rest) = .ok o ∧
      o.getRange = rangeOf (((framesSet ops).map (·.1)).getD 0 : Nat) v ∧
      ((∀ op ∈ rest, ∀ n c, op ≠ .frames n c) → ∃ n, o.getAttr .numFrames = some n ∧
        0 ≤ o.getRange.1 ∧ o.getRange.1 ≤ o.getRange.2 ∧ o.getRange.2 ≤ n) := by
  obtain ⟨o, e, k⟩ := DObj.after_set ops fun x hx => h x (List.mem_append_left _ hx)
  have ht : DOp.Typed (.range v) := h _ (List.mem_append_right _ List.mem_cons_self)
  obtain ⟨o1, a1, a2, a3, a4, a5, -, a6⟩ := C90_range k.small ht
  have hn : o.numFrames = ((framesSet ops).map (·.1)).getD 0 := by
    have := congrArg Prod.fst k.frames
    dsimp only at this
    rw [this]
    cases framesSet ops <;> rfl
  have run : ∀ (rest : List DOp) (o1 : DObj), (∀ op ∈ rest, ∀ w, op ≠ .range w) → ∃ o2, rest.foldlM DObj.exec o1 = .ok o2 ∧
      o2.getRange = o1.getRange ∧ ((∀ op ∈ rest, ∀ n c, op ≠ .frames n c) → o2.numFrames = o1.numFrames) := by
    intro rest
    induction rest with
    | nil => exact fun o1 _ => ⟨o1, rfl, rfl, fun _ => rfl⟩
    | cons op rest ih =>
      intro o1 hr
      have step : ∃ o', o1.exec op = .ok o' ∧ o'.getRange = o1.getRange ∧ ((∀ n c, op ≠ .frames n c) → o'.numFrames = o1.numFrames) := by
        cases op with
        | attr a w => exact ⟨_, rfl, by cases a <;> rfl, fun _ => by cases a <;> rfl⟩
        | range w => exact absurd rfl (hr _ List.mem_cons_self w)
        | frames n c =>
          refine ⟨_, rfl, ?_, fun hh => absurd rfl (hh n c)⟩
          unfold DObj.newFrames
          split
          · rfl
          · split <;> rfl
      obtain ⟨o', s1, s2, s3⟩ := step
      obtain ⟨o2, t1, t2, t3⟩ := ih o' fun x hx => hr x (List.mem_cons_of_mem _ hx)
      refine ⟨o2, ?_, t2.trans s2, fun hh => ?_⟩
      · rw [List.foldlM_cons, s1, ok_bind, t1]
      · rw [t3 fun x hx => hh x (List.mem_cons_of_mem _ hx), s3 (hh op List.mem_cons_self)]
  obtain ⟨o2, r1, r2, r3⟩ := run rest o1 hr
  refine ⟨o2, ?_, ?_, fun hh => ?_⟩
  · unfold DObj.after at e ⊢
    rw [List.foldlM_append, e, ok_bind, List.foldlM_cons]
    show (o.setRange v >>= _) = _
    rw [a1, ok_bind, r1]
  · rw [r2, a2, hn]
  · have f : o2.getAttr .numFrames = some (o.numFrames : Int) := by
      have q : o1.numFrames = o.numFrames := by
        have := (DObj.setRange_eq k.small ht).1
        rw [a1] at this
        cases this
        rfl
      unfold DObj.getAttr
      dsimp only
      rw [r3 hh, q]
      refine congrArg some ?_
      have := k.small
      unfold wrapI32
      omega
    refine ⟨_, f, ?_⟩
    rw [r2]
    exact ⟨a3, a4, a5⟩

/-- When frames are replaced by fewer, the range stays and lies beyond their end. -/
theorem C90_refuted_frames : (DObj.after [.frames 100 1, .range (some (10, 90)), .frames 50 1]).map
    (fun o => (o.getRange, o.getAttr .numFrames)) = .ok ((10, 90), some 50) := by decide +kernel

/-- Counts cannot be set. -/
theorem C90_read_only (o : DObj) (v : Int) : o.setAttr .numFrames v = (.invalidAttribute, o) ∧
    o.setAttr .numChannels v = (.invalidAttribute, o) ∧ o.setAttr .other v = (.invalidAttribute, o) := ⟨rfl, rfl, rfl⟩

/-! What a track takes over. -/

/-- Refused calls change nothing, the pitch is limited; the range is given from the end and backwards. -/
example : (DObj.after [.frames 100 2, .attr .samplePitch (-60 * U20), .frames 1 1, .frames 7 9, .attr .numFrames 5,
    .range (some (-1, -41))]).map (fun o => (o.getAttr .numFrames, o.getAttr .numChannels, o.getAttr .samplePitch, o.getRange)) =
    .ok (some 100, some 2, some (-48 * U20), (60, 100)) := by decide +kernel

/-- C90: a track that is given a sample takes over the pitch of the data. -/
theorem C90_pitch_taken {o : DObj} {id : Nat} {frames : List Int} {x : Nat} {w : IWorld} {t t' : Track} {type : DataAttr}
    (h : t.setData x w type (some (o.arg id frames)) = .ok (.ok, t')) : t'.samplePitch = o.samplePitch := by
  unfold Track.setData at h
  obtain ⟨r, -, h⟩ := bind_ok_iff.1 h
  split at h
  · obtain ⟨t1, h1, h⟩ := bind_ok_iff.1 h
    cases h
    exact (Track.updateNote_same h1).1.samplePitch
  · rename_i hne
    cases h
    exact absurd rfl hne

/-- The range of the data is not taken over, though it is said that it will be copied to the track (BKData.h 160–162): a
track that is given another sample has no sustain range, whatever the range of the data. -/
theorem C90_refuted_taken {o : DObj} {id : Nat} {frames : List Int} {x : Nat} {w : IWorld} {t t' : Track}
    (hnew : t.dataId ≠ some id) (h : t.setData x w .sample (some (o.arg id frames)) = .ok (.ok, t')) :
    t'.unit.sustainRange = false ∧ t'.unit.sustainOffset = 0 ∧ t'.unit.sustainEnd = 0 := by
  have keep : ∀ {c : UCore} {a : UAttr} {v : Int} {r : Ret × UCore}, a = .period ∨ a = .samplePeriod → c.setAttr a v = .ok r →
      r.2.sustainRange = c.sustainRange ∧ r.2.sustainOffset = c.sustainOffset ∧ r.2.sustainEnd = c.sustainEnd := by
    intro c a v r ha h
    rcases ha with rfl | rfl
    all_goals
      unfold UCore.setAttr at h
      dsimp only at h
      obtain ⟨z, -, h⟩ := bind_ok_iff.1 h
      cases h
      exact ⟨rfl, rfl, rfl⟩
  have note : ∀ {t t' : Track}, t.updateNote x w = .ok t' → t'.unit.sustainRange = t.unit.sustainRange ∧
      t'.unit.sustainOffset = t.unit.sustainOffset ∧ t'.unit.sustainEnd = t.unit.sustainEnd := by
    intro t t' h
    unfold Track.updateNote at h
    split at h
    · cases h; exact ⟨rfl, rfl, rfl⟩
    · obtain ⟨n, -, h⟩ := bind_ok_iff.1 h
      split at h
      · obtain ⟨p, -, h⟩ := bind_ok_iff.1 h
        obtain ⟨q, -, h⟩ := bind_ok_iff.1 h
        obtain ⟨r, hr, rfl⟩ := Track.setUnit_eq h
        exact keep (by simp) hr
      · obtain ⟨p, -, h⟩ := bind_ok_iff.1 h
        obtain ⟨q, -, h⟩ := bind_ok_iff.1 h
        obtain ⟨r, hr, rfl⟩ := Track.setUnit_eq h
        exact keep (by simp) hr
  unfold Track.setData at h
  obtain ⟨r, h0, h⟩ := bind_ok_iff.1 h
  split at h
  · rename_i hok
    obtain ⟨t1, h1, h⟩ := bind_ok_iff.1 h
    cases h
    obtain ⟨k1, k2, k3⟩ := note h1
    rw [k1, k2, k3]
    show r.2.unit.sustainRange = false ∧ r.2.unit.sustainOffset = 0 ∧ r.2.unit.sustainEnd = 0
    unfold Track.setUnitData at h0
    rw [if_neg (by
      rintro ⟨-, -, h⟩
      exact hnew h.symm)] at h0
    obtain ⟨q, hq, h0⟩ := bind_ok_iff.1 h0
    cases h0
    dsimp only at hok ⊢
    unfold UCore.setData at hq
    obtain ⟨z, hz, hq⟩ := bind_ok_iff.1 hq
    split at hq
    · rename_i hz1
      cases hq
      dsimp only
      unfold UCore.trySetData at hz
      split at hz
      · cases hz; exact absurd hz1 (by dsimp only; decide)
      · dsimp only at hz
        unfold UCore.trySetSample DObj.arg at hz
        dsimp only [Option.map_some] at hz
        split at hz
        · cases hz; exact absurd hz1 (by dsimp only; decide)
        · split at hz
          · cases hz; exact absurd hz1 (by dsimp only; decide)
          · obtain ⟨sp, -, hz⟩ := bind_ok_iff.1 hz
            cases hz
            exact ⟨rfl, rfl, rfl⟩
    · rename_i hne
      split at hq
      · cases hq; exact absurd hok hne
      · cases hq; exact absurd hok hne
  · rename_i hne
    cases h
    exact absurd rfl hne

end BK
