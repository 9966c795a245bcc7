import Verif.Lemmas.Envelope
/-! Runs of envelopes: segments between points. -/
namespace BK

theorem EnvSeq.run_append (q : EnvSeq) (a b : List SeqOp) (st : SeqState) :
    q.run st (a ++ b) = (do
      let r ← q.run st a
      let t ← q.run r.1 b
      return (t.1, r.2 ++ t.2)) := by
  induction a generalizing st with
  | nil =>
    show q.run st b = _
    simp only [EnvSeq.run, ok_bind]
    cases q.run st b <;> rfl
  | cons op a ih =>
    simp only [List.cons_append, EnvSeq.run]
    cases hx : q.exec st op with
    | error e => rfl
    | ok r =>
      simp only [ok_bind]
      rw [ih]
      cases q.run r.2 a with
      | error e => rfl
      | ok t =>
        simp only [ok_bind, pure_eq_ok]
        cases q.run t.1 b <;> rfl

theorem usual_W {ps : List EnvPoint} {so sl : Int} {q : EnvSeq} (hu : UsualEnv ps so sl)
    (h : EnvSeq.create ps so sl = .ok (some q)) :
    q.W (sustainBegin ps.length so) (sustainSize ps.length so sl) ∧ q.points = ps ∧ q.N := by
  obtain ⟨h1, h2, h3⟩ := EnvSeq.create_W hu.short hu.hso hu.hsl
    (fun p hp => by have := hu.steps p hp; unfold InU32; omega) h
  exact ⟨h1, h2, EnvSeq.create_N h2 h3 (fun p hp => (hu.steps p hp).2) hu.vals⟩

theorem EnvSeq.Reach.inv {q : EnvSeq} {so sl : Nat} (hq : q.W so sl) (hN : q.N) {st : SeqState}
    (h : q.Reach st) : EnvInv True q st := by
  obtain ⟨ops, out, hf, hr⟩ := h
  have := EnvSeq.run_inv hq (fun _ => hN) ops {} (EnvInv.init True q) (fun _ => hf)
  rw [hr] at this
  exact this

/-- A state within a segment. -/
def SeqState.along (q : EnvSeq) (st : SeqState) (j : Nat) : SeqState :=
  { st with steps := st.steps - j, shiftedValue := st.shiftedValue + j * st.delta,
            value := (st.shiftedValue + j * st.delta) / 2 ^ q.fracShift }

theorem EnvSeq.step_along {q : EnvSeq} {so sl : Nat} (hq : q.W so sl) (hN : q.N) {st : SeqState}
    (h : EnvInv True q st) (hs : 1 < st.steps) :
    q.step st = .ok (.step, st.along q 1) ∧ EnvInv True q (st.along q 1) := by
  have hi := EnvSeq.step_inv hq (fun _ => hN) st h
  obtain ⟨hn, h0, hmax, hw⟩ := h.num trivial
  obtain ⟨hnf, p, hp, he, hle, ht, hr⟩ := hw (by omega)
  have h1 := toward_bounds (by omega) ht
  have h2 := hn.sh
  have h3 := hn.en
  have hx : q.step st = .ok (.step, st.along q 1) := by
    unfold EnvSeq.step
    rw [if_neg hnf, if_pos (by omega), i32_ok (by omega) (by omega)]
    simp only [ok_bind]
    rw [if_pos (by omega), i32_ok (by omega) (by omega)]
    simp [SeqState.along]
  refine ⟨hx, ?_⟩
  rw [hx] at hi
  exact hi.1

theorem EnvSeq.run_along {q : EnvSeq} {so sl : Nat} (hq : q.W so sl) (hN : q.N) :
    ∀ (j : Nat) {st : SeqState}, EnvInv True q st → (j : Int) < st.steps →
    q.run st (ticks j) = .ok (st.along q j,
      (List.range j).map fun i => (SeqRet.step, (st.along q (i + 1)).value)) ∧
    EnvInv True q (st.along q j) := by
  intro j
  induction j with
  | zero =>
    intro st h _
    have : st.along q 0 = st := by
      have := (h.num trivial).1.eq
      simp [SeqState.along, ← this]
    rw [this]
    exact ⟨rfl, h⟩
  | succ j ih =>
    intro st h hj
    obtain ⟨h1, h2⟩ := ih h (by omega)
    obtain ⟨h3, h4⟩ := EnvSeq.step_along hq hN h2 (by
      show 1 < st.steps - j
      omega)
    have e : (st.along q j).along q 1 = st.along q (j + 1) := by
      have e1 : st.shiftedValue + j * st.delta + 1 * st.delta =
        st.shiftedValue + (j + 1) * st.delta := by ring
      simp only [SeqState.along, Nat.cast_add, Nat.cast_one]
      rw [e1, show st.steps - (j : Int) - 1 = st.steps - ((j : Int) + 1) by omega]
    rw [e] at h3 h4
    refine ⟨?_, h4⟩
    have hsplit : ticks (j + 1) = ticks j ++ [.step true] := by
      unfold ticks; rw [List.replicate_succ']
    rw [hsplit, EnvSeq.run_append, h1]
    simp only [ok_bind, EnvSeq.run, EnvSeq.exec, h3, pure_eq_ok]
    rw [List.range_succ, List.map_append]
    rfl

/-- Where playback goes at offset `o`. -/
def effOffset (so sl : Nat) (st : SeqState) (o : Nat) : Nat :=
  if st.phase = .attack ∧ so + sl ≤ o then so else o

theorem EnvSeq.fetch_head {q : EnvSeq} {so sl : Nat} (hq : q.W so sl) (fuel o : Nat)
    (st : SeqState) (res : SeqRet) (ho : st.offset = o) :
    q.fetch (fuel + 1) st res =
      (if effOffset so sl st o < q.points.length then do
        let p ← rd q.points (effOffset so sl st o : Nat)
        if p.steps ≠ 0 then
          let e ← i32 (p.value * 2 ^ q.fracShift)
          let d ← i32 (e - st.shiftedValue)
          let delta ← i32 (d.tdiv (wrapI32 p.steps))
          return (if st.phase = .attack ∧ so + sl ≤ o then .rep else res,
                  { st with offset := (effOffset so sl st o : Nat), steps := wrapI32 p.steps, endValue := e,
                            delta := delta, value := st.shiftedValue / 2 ^ q.fracShift })
        else
          let s ← i32 (p.value * 2 ^ q.fracShift)
          let o' ← i32 ((effOffset so sl st o : Nat) + 1)
          q.fetch fuel { st with offset := o', steps := 0, shiftedValue := s,
                                 value := s / 2 ^ q.fracShift }
            (if st.phase = .attack ∧ so + sl ≤ o then .rep else res)
      else
        return (.finish, { st with offset := INT_MAX })) := by
  have hle := hq.le
  have hlt := hq.lt
  rw [EnvSeq.fetch_succ, hq.hso, hq.hsl, i32_ok (by omega) (by omega)]
  simp only [ok_bind, hq.len]
  have hwr : (decide (st.phase = .attack) && decide (st.offset ≥ (so : Int) + sl)) =
      decide (st.phase = .attack ∧ so + sl ≤ o) := by
    rw [ho]
    by_cases h1 : st.phase = .attack
    · by_cases h2 : so + sl ≤ o
      · have : (o : Int) ≥ (so : Int) + sl := by omega
        simp [h1, h2, this]
      · have : ¬ (o : Int) ≥ (so : Int) + sl := by omega
        simp only [h1, h2, this, decide_false, and_false, Bool.and_false]
    · simp [h1]
  rw [hwr]
  simp only [decide_eq_true_eq]
  have hof : (if st.phase = .attack ∧ so + sl ≤ o then (so : Int) else st.offset) =
      (effOffset so sl st o : Nat) := by
    unfold effOffset; rw [ho]; split <;> rfl
  rw [hof]
  by_cases hlen : effOffset so sl st o < q.points.length
  · rw [if_pos hlen, if_pos (by omega)]
  · rw [if_neg hlen, if_neg (by omega)]

/-- Loading a point with steps. -/
theorem EnvSeq.fetch_load {q : EnvSeq} {so sl : Nat} (hq : q.W so sl) (hN : q.N) (fuel o : Nat)
    (st : SeqState) (res : SeqRet) (ho : st.offset = o) (p : EnvPoint)
    (hp : q.points[effOffset so sl st o]? = some p) (hs : p.steps ≠ 0)
    (hsh : -1073741824 ≤ st.shiftedValue ∧ st.shiftedValue ≤ 1073741824) :
    q.fetch (fuel + 1) st res = .ok (if st.phase = .attack ∧ so + sl ≤ o then .rep else res,
      { st with offset := (effOffset so sl st o : Nat), steps := p.steps,
                endValue := p.value * 2 ^ q.fracShift,
                delta := (p.value * 2 ^ q.fracShift - st.shiftedValue).tdiv p.steps,
                value := st.shiftedValue / 2 ^ q.fracShift }) := by
  have hlen : effOffset so sl st o < q.points.length := by
    by_contra hc
    rw [List.getElem?_eq_none (by omega)] at hp
    simp at hp
  have hmem : p ∈ q.points := List.mem_of_getElem? hp
  have h1 := hN.val p hmem
  have h2 := hN.steps p hmem
  have h3 := hq.steps p hmem
  unfold InU32 at h3
  have hrd : rd q.points (effOffset so sl st o : Nat) = .ok p := by
    unfold rd; simp [hp]
  have h4 : wrapI32 p.steps = p.steps := wrapI32_id (by omega) (by omega)
  have h5 : InI32 ((p.value * 2 ^ q.fracShift - st.shiftedValue).tdiv p.steps) :=
    tdiv_in (by omega) (by omega) (by omega)
  rw [EnvSeq.fetch_head hq fuel o st res ho, if_pos hlen, hrd]
  simp only [ok_bind]
  rw [if_pos hs, i32_ok (by omega) (by omega)]
  simp only [ok_bind]
  rw [i32_ok (by omega) (by omega)]
  simp only [ok_bind]
  rw [h4, i32_ok h5.1 h5.2]
  rfl

/-- Jumping over a point without steps. -/
theorem EnvSeq.fetch_jump {q : EnvSeq} {so sl : Nat} (hq : q.W so sl) (hN : q.N) (fuel o : Nat)
    (st : SeqState) (res : SeqRet) (ho : st.offset = o) (p : EnvPoint)
    (hp : q.points[effOffset so sl st o]? = some p) (hs : p.steps = 0) :
    q.fetch (fuel + 1) st res = q.fetch fuel
      { st with offset := (effOffset so sl st o + 1 : Nat), steps := 0,
                shiftedValue := p.value * 2 ^ q.fracShift,
                value := p.value } (if st.phase = .attack ∧ so + sl ≤ o then .rep else res) := by
  have hlt := hq.lt
  have hlen : effOffset so sl st o < q.points.length := by
    by_contra hc
    rw [List.getElem?_eq_none (by omega)] at hp
    simp at hp
  have hmem : p ∈ q.points := List.mem_of_getElem? hp
  have h1 := hN.val p hmem
  have hrd : rd q.points (effOffset so sl st o : Nat) = .ok p := by
    unfold rd; simp [hp]
  rw [EnvSeq.fetch_head hq fuel o st res ho, if_pos hlen, hrd]
  simp only [ok_bind]
  rw [if_neg (by omega), i32_ok (by omega) (by omega)]
  simp only [ok_bind]
  rw [i32_ok (by omega) (by omega)]
  simp only [ok_bind, mul_pow_ediv]
  rfl

/-- Reaching the end. -/
theorem EnvSeq.fetch_end {q : EnvSeq} {so sl : Nat} (hq : q.W so sl) (fuel o : Nat)
    (st : SeqState) (res : SeqRet) (ho : st.offset = o)
    (he : q.points.length ≤ effOffset so sl st o) :
    q.fetch (fuel + 1) st res = .ok (.finish, { st with offset := INT_MAX }) := by
  rw [EnvSeq.fetch_head hq fuel o st res ho, if_neg (by omega)]
  rfl

/-- The last tick of a segment. -/
theorem EnvSeq.step_last {q : EnvSeq} {so sl : Nat} (hq : q.W so sl) {st : SeqState} {o : Nat}
    (ho : st.offset = o) (hlt : o < q.points.length) (hs : st.steps = 1) :
    q.step st = q.fetch q.fuel { st with steps := 0, shiftedValue := st.endValue,
                                         value := st.endValue / 2 ^ q.fracShift,
                                         offset := (o + 1 : Nat) } .step := by
  have := hq.lt
  unfold EnvSeq.step
  rw [if_neg (by omega), if_pos (by omega), i32_ok (by omega) (by omega)]
  simp only [ok_bind]
  rw [if_neg (by omega), i32_ok (by omega) (by omega)]
  simp only [ok_bind, hs, ho]
  rfl

end BK
