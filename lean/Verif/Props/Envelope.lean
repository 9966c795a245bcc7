import Verif.Lemmas.EnvRun
/-! Properties of envelopes: C24 (second half), C25, C26. -/
namespace BK

/-- C24 (envelopes): with fewer than 2^28 points, whatever the sustain arguments, the steps and
values of the points, and whatever calls are made in whatever order, only existing points are
read; the only thing that can go wrong is arithmetic overflow. -/
theorem C24_envelope_partial (ps : List EnvPoint) (so sl : Int) (q : EnvSeq)
    (hl : ps.length < 268435456) (hso : InI32 so) (hsl : InI32 sl)
    (hst : ∀ p ∈ ps, InU32 p.steps) (hq : EnvSeq.create ps so sl = .ok (some q))
    (ops : List SeqOp) (e : Fault) (h : q.run {} ops = .error e) : e = .overflow := by
  obtain ⟨h1, _, _⟩ := EnvSeq.create_W hl hso hsl hst hq
  have := EnvSeq.run_inv (B := False) h1 False.elim ops {} (EnvInv.init False q) False.elim
  rw [h] at this
  exact this.1

/-- The excluded overflow does occur: an envelope with small values uses a large precision factor,
and setting a larger value (15, a legal duty cycle) does not fit any more. -/
theorem C24_envelope_overflow :
    ∃ q, EnvSeq.create [⟨10, 2⟩, ⟨10, 1⟩] 2 0 = .ok (some q) ∧
      q.run {} [.setValue 15] = .error .overflow :=
  ⟨⟨[⟨10, 2⟩, ⟨10, 1⟩], 2, 2, 0, 28⟩, by decide +kernel, by decide +kernel⟩

/-- C24 (envelopes): nothing at all goes wrong for usual envelopes as long as the values set fit
their scale. -/
theorem C24_envelope_usual (ps : List EnvPoint) (so sl : Int) (q : EnvSeq) (hu : UsualEnv ps so sl)
    (hq : EnvSeq.create ps so sl = .ok (some q)) (ops : List SeqOp) (hf : ∀ op ∈ ops, op.Fits q) :
    ∃ r, q.run {} ops = .ok r := by
  obtain ⟨h1, _, h3⟩ := usual_W hu hq
  obtain ⟨r, hr, _⟩ := (EnvSeq.run_inv (B := True) h1 (fun _ => h3) ops {} (EnvInv.init True q)
    (fun _ => hf)).get trivial
  exact ⟨r, hr⟩

/-- A usual envelope, and calls that fit. -/
example : UsualEnv [⟨5, 32767⟩, ⟨7, -20000⟩, ⟨0, 3⟩, ⟨9, 0⟩] 1 2 ∧
    (∃ q, EnvSeq.create [⟨5, 32767⟩, ⟨7, -20000⟩, ⟨0, 3⟩, ⟨9, 0⟩] 1 2 = .ok (some q) ∧
      ∀ op ∈ [SeqOp.setValue 32767, .setPhase .attack, .step true, .setValue (-32768),
        .setPhase .release], op.Fits q) := by
  constructor
  · exact ⟨by decide, by decide, by decide, by decide, by decide⟩
  · refine ⟨⟨[⟨5, 32767⟩, ⟨7, -20000⟩, ⟨0, 3⟩, ⟨9, 0⟩], 4, 1, 2, 15⟩, by decide +kernel, ?_⟩
    intro op hop
    simp only [List.mem_cons, List.not_mem_nil, or_false] at hop
    rcases hop with rfl | rfl | rfl | rfl | rfl <;> simp [SeqOp.Fits]

/-- C24 fails for very long envelopes: with 2^29 points the size computation wraps around to 0,
creation succeeds without copying anything, and the first attack reads outside. -/
theorem C24_envelope_refuted :
    ∃ (ps : List EnvPoint) (q : EnvSeq), ps.length = 536870912 ∧
      EnvSeq.create ps 536870912 0 = .ok (some q) ∧
      q.run {} [.setPhase .attack] = .error .oob := by
  obtain ⟨fs, h1, _⟩ := fracShift_spec (List.replicate 536870912 ⟨1, 0⟩) (by
    intro p hp
    rw [List.eq_of_mem_replicate hp]
    decide)
  refine ⟨List.replicate 536870912 ⟨1, 0⟩, ⟨[], 536870912, 536870912, 0, fs⟩,
    List.length_replicate, ?_, ?_⟩
  · unfold EnvSeq.create
    rw [List.length_replicate]
    have h0 : wrapI32 (8 * ((536870912 : Nat) : Int)) = 0 := by decide +kernel
    have h2 : ((0 : Int) / 8).toNat = 0 := by decide
    have h3 : cclamp (wrapU32 536870912) 0 ((536870912 : Nat) : Int) = 536870912 := by decide +kernel
    have h4 : cclamp (wrapU32 0) 0 (((536870912 : Nat) : Int) - 536870912) = 0 := by decide +kernel
    have h5 : ∀ z, envCheck (List.replicate 536870912 ⟨1, 0⟩) 536870912 z = true := by
      intro z
      unfold envCheck
      rw [List.length_replicate, if_pos (by decide)]
    simp only [h0, seqAlloc, h2, h3, h4, List.take_zero, h1, h5, if_true, ok_bind, ge_iff_le,
      Int.le_refl]
    rfl
  · rfl

/-- C25: if creating an envelope succeeds, no later tick or phase change loops for ever. -/
theorem C25_terminates (ps : List EnvPoint) (so sl : Int) (q : EnvSeq)
    (hl : ps.length < 268435456) (hso : InI32 so) (hsl : InI32 sl)
    (hst : ∀ p ∈ ps, InU32 p.steps) (hq : EnvSeq.create ps so sl = .ok (some q))
    (ops : List SeqOp) : q.run {} ops ≠ .error .endless := by
  intro h
  exact absurd (C24_envelope_partial ps so sl q hl hso hsl hst hq ops _ h) (by decide)

/-- C25: an envelope whose sustain range (inside the envelope) has no steps is rejected. -/
theorem C25_rejected (ps : List EnvPoint) (so sl : Int) (hl : ps.length < 268435456)
    (hso : InI32 so) (hsl : InI32 sl) (h : sustainBegin ps.length so < ps.length)
    (hz : ∀ i p, sustainBegin ps.length so ≤ i →
      i < sustainBegin ps.length so + sustainSize ps.length so sl → ps[i]? = some p → p.steps = 0) :
    EnvSeq.create ps so sl = .ok none := by
  rw [EnvSeq.create_eq hl hso hsl]
  generalize sustainBegin ps.length so = b at *
  generalize sustainSize ps.length so sl = z at *
  rw [if_neg]
  · rfl
  · unfold envCheck
    rw [if_neg (by omega)]
    simp only [decide_eq_true_eq, ne_eq, Decidable.not_not, Int.toNat_natCast]
    apply sumSteps_zero
    intro p hp
    obtain ⟨i, hi⟩ := List.getElem?_of_mem hp
    rw [List.getElem?_take] at hi
    split at hi
    · rename_i hiz
      rw [List.getElem?_drop] at hi
      exact hz (b + i) p (by omega) (by omega) hi
    · simp at hi

/-- C25: the rejection is needed: with such a sustain range, the loop of an attacked state that
has arrived there goes on for any number of iterations. -/
theorem C25_rejection_needed (q : EnvSeq) (so sl : Nat) (hlen : q.length = q.points.length)
    (hlt : q.points.length < 268435456) (hso : q.sustainOffset = so) (hsl : q.sustainLength = sl)
    (h0 : so < q.points.length) (hle : so + sl ≤ q.points.length)
    (hz : ∀ i p, so ≤ i → i < so + max sl 1 → q.points[i]? = some p → p.steps = 0)
    (hv : ∀ p ∈ q.points, InI32 (p.value * 2 ^ q.fracShift))
    (n o : Nat) (st : SeqState) (hp : st.phase = .attack) (ho : st.offset = o) (ho1 : so ≤ o)
    (res : SeqRet) : q.fetch n st res = .error .endless := by
  induction n generalizing o st res with
  | zero => rfl
  | succ n ih =>
    rw [EnvSeq.fetch_succ, hso, hsl, i32_ok (by omega) (by omega)]
    simp only [ok_bind]
    generalize hof : (if (decide (st.phase = .attack) && decide (st.offset ≥ (so : Int) + sl)) = true
      then so else o) = eff
    have hof' : (if (decide (st.phase = .attack) && decide (st.offset ≥ (so : Int) + sl)) = true
      then (so : Int) else st.offset) = (eff : Int) := by
      rw [← hof, ho]; split <;> rfl
    have heff : so ≤ eff ∧ eff < so + max sl 1 := by
      rw [← hof]
      split
      · omega
      · rename_i hw
        simp [hp, ho] at hw
        omega
    have hlen' : eff < q.points.length := by omega
    rw [hof', hlen, if_pos (by omega)]
    have hrd : rd q.points (eff : Int) = .ok q.points[eff] := by
      unfold rd; simp [hlen']
    have hs := hz eff q.points[eff] heff.1 heff.2 (by simp [hlen'])
    have hval := hv _ (List.getElem_mem hlen')
    rw [hrd]
    simp only [ok_bind]
    rw [if_neg (fun h => h hs), i32_ok hval.1 hval.2]
    simp only [ok_bind]
    rw [i32_ok (by omega) (by omega)]
    simp only [ok_bind]
    refine ih (eff + 1) _ ?_ ?_ (by omega) _
    · exact hp
    · push_cast; rfl

example : EnvSeq.create [⟨5, 100⟩, ⟨0, 50⟩, ⟨0, 20⟩, ⟨3, 0⟩] 1 2 = .ok none := by decide +kernel
example : ∃ q, EnvSeq.create [⟨5, 100⟩, ⟨0, 50⟩, ⟨1, 20⟩, ⟨0, 0⟩] 1 2 = .ok (some q) ∧
    (q.run {} (.setPhase .attack :: ticks 20 ++ [.setPhase .release])).toOption.isSome = true :=
  ⟨⟨[⟨5, 100⟩, ⟨0, 50⟩, ⟨1, 20⟩, ⟨0, 0⟩], 4, 1, 2, 23⟩, by decide +kernel, by decide +kernel⟩

/-- Values on the way lie in order between the current value and the target. -/
theorem along_order {q : EnvSeq} (st : SeqState) (v : Int) (hv : st.endValue = v * 2 ^ q.fracShift)
    (heq : st.value = st.shiftedValue / 2 ^ q.fracShift)
    (ht : Toward st.delta st.steps (st.endValue - st.shiftedValue)) :
    (st.value ≤ v → ∀ j : Nat, (j : Int) < st.steps →
      (st.along q j).value ≤ v ∧
      ((j : Int) + 1 < st.steps → (st.along q j).value ≤ (st.along q (j + 1)).value)) ∧
    (v ≤ st.value → ∀ j : Nat, (j : Int) < st.steps →
      v ≤ (st.along q j).value ∧
      ((j : Int) + 1 < st.steps → (st.along q (j + 1)).value ≤ (st.along q j).value)) := by
  have hpos : (0 : Int) < 2 ^ q.fracShift := two_pow_pos _
  have hvv : v = st.endValue / 2 ^ q.fracShift := by rw [hv, mul_pow_ediv]
  have mono : ∀ {a b : Int}, a ≤ b → a / 2 ^ q.fracShift ≤ b / 2 ^ q.fracShift :=
    fun h => Int.ediv_le_ediv hpos h
  have step1 : ∀ j : Nat, st.shiftedValue + ((j + 1 : Nat) : Int) * st.delta =
      st.shiftedValue + j * st.delta + st.delta := by intro j; push_cast; ring
  simp only [SeqState.along]
  rcases ht with ⟨h1, h2⟩ | ⟨h1, h2⟩
  · -- upwards
    have up : ∀ j : Nat, (j : Int) < st.steps → st.shiftedValue ≤ st.shiftedValue + j * st.delta ∧
        st.shiftedValue + j * st.delta ≤ st.endValue := by
      intro j hj
      have a1 : (j : Int) * st.delta ≤ st.steps * st.delta :=
        Int.mul_le_mul_of_nonneg_right (by omega) h1
      have a2 : 0 ≤ (j : Int) * st.delta := Int.mul_nonneg (by omega) h1
      rw [Int.mul_comm st.steps] at a1
      omega
    constructor
    · intro _ j hj
      obtain ⟨u1, u2⟩ := up j hj
      refine ⟨by rw [hvv]; exact mono u2, fun _ => ?_⟩
      rw [step1]; exact mono (by omega)
    · intro hle j hj
      obtain ⟨u1, u2⟩ := up j hj
      have e1 : st.shiftedValue / 2 ^ q.fracShift ≤
        (st.shiftedValue + j * st.delta) / 2 ^ q.fracShift := mono u1
      refine ⟨by omega, fun hj1 => ?_⟩
      obtain ⟨w1, w2⟩ := up (j + 1) (by push_cast; omega)
      have e2 : (st.shiftedValue + ((j + 1 : Nat) : Int) * st.delta) / 2 ^ q.fracShift ≤
        st.endValue / 2 ^ q.fracShift := mono w2
      omega
  · -- downwards
    have dn : ∀ j : Nat, (j : Int) < st.steps → st.shiftedValue + j * st.delta ≤ st.shiftedValue ∧
        st.endValue ≤ st.shiftedValue + j * st.delta := by
      intro j hj
      have a1 : st.steps * st.delta ≤ (j : Int) * st.delta :=
        Int.mul_le_mul_of_nonpos_right (by omega) h1
      have a2 : (j : Int) * st.delta ≤ 0 := Int.mul_nonpos_of_nonneg_of_nonpos (by omega) h1
      rw [Int.mul_comm st.steps] at a1
      omega
    constructor
    · intro hle j hj
      obtain ⟨u1, u2⟩ := dn j hj
      have e1 : (st.shiftedValue + j * st.delta) / 2 ^ q.fracShift ≤
        st.shiftedValue / 2 ^ q.fracShift := mono u1
      refine ⟨by omega, fun hj1 => ?_⟩
      obtain ⟨w1, w2⟩ := dn (j + 1) (by push_cast; omega)
      have e2 : st.endValue / 2 ^ q.fracShift ≤
        (st.shiftedValue + ((j + 1 : Nat) : Int) * st.delta) / 2 ^ q.fracShift := mono w2
      omega
    · intro _ j hj
      obtain ⟨u1, u2⟩ := dn j hj
      refine ⟨by rw [hvv]; exact mono u2, fun _ => ?_⟩
      rw [step1]; exact mono (by omega)

/-- C26: whatever happened before, an envelope on its way to a point (with `steps` ticks to go)
moves monotonically towards the value of the point and never passes it: `f j` is the value after
`j` ticks. -/
theorem C26_monotone (ps : List EnvPoint) (so sl : Int) (q : EnvSeq) (hu : UsualEnv ps so sl)
    (hq : EnvSeq.create ps so sl = .ok (some q)) (st : SeqState) (hr : q.Reach st)
    (hs : 0 < st.steps) :
    ∃ (p : EnvPoint) (f : Nat → Int), ps[st.offset.toNat]? = some p ∧ f 0 = st.value ∧
      (∀ j : Nat, (j : Int) < st.steps → ∃ st', q.run st (ticks j) =
        .ok (st', (List.range j).map fun i => (.step, f (i + 1))) ∧ st'.value = f j) ∧
      (st.value ≤ p.value → ∀ j : Nat, (j : Int) < st.steps →
        f j ≤ p.value ∧ ((j : Int) + 1 < st.steps → f j ≤ f (j + 1))) ∧
      (p.value ≤ st.value → ∀ j : Nat, (j : Int) < st.steps →
        p.value ≤ f j ∧ ((j : Int) + 1 < st.steps → f (j + 1) ≤ f j)) := by
  obtain ⟨hW, hps, hN⟩ := usual_W hu hq
  have hi := hr.inv hW hN
  obtain ⟨hn, _, _, hw⟩ := hi.num trivial
  obtain ⟨hnf, p, hp, he, hle, ht, hrem⟩ := hw hs
  obtain ⟨ho1, ho2⟩ := along_order (q := q) st p.value he hn.eq ht
  refine ⟨p, fun j => (st.along q j).value, ?_, ?_, ?_, ho1, ho2⟩
  · rw [← hps]; exact hp
  · show (st.shiftedValue + ((0 : Nat) : Int) * st.delta) / 2 ^ q.fracShift = st.value
    rw [hn.eq]; simp
  · intro j hj
    exact ⟨_, (EnvSeq.run_along hW hN j hi hj).1, rfl⟩

/-- C26: after all `steps` ticks the value is exactly that of the point, unless the point that
follows in the current phase is a jump (no steps). -/
theorem C26_exact (ps : List EnvPoint) (so sl : Int) (q : EnvSeq) (hu : UsualEnv ps so sl)
    (hq : EnvSeq.create ps so sl = .ok (some q)) (st : SeqState) (hr : q.Reach st)
    (hs : 0 < st.steps) (p : EnvPoint) (hp : ps[st.offset.toNat]? = some p) (next : Nat)
    (hnext : next = if st.phase = .attack ∧ sustainBegin ps.length so + sustainSize ps.length so sl
        ≤ st.offset.toNat + 1 then sustainBegin ps.length so else st.offset.toNat + 1)
    (hn : ps.length ≤ next ∨ ∃ p', ps[next]? = some p' ∧ p'.steps ≠ 0) :
    ∃ st' out, q.run st (ticks st.steps.toNat) = .ok (st', out) ∧ st'.value = p.value := by
  obtain ⟨hW, hps, hN⟩ := usual_W hu hq
  generalize sustainBegin ps.length so = b at *
  generalize sustainSize ps.length so sl = z at *
  have hi := hr.inv hW hN
  obtain ⟨hnum, _, _, hw⟩ := hi.num trivial
  obtain ⟨hnf, p2, hp2, he, hle, ht, hrem⟩ := hw hs
  have hpe : p2 = p := by
    rw [hps, hp] at hp2; injection hp2 with h; exact h.symm
  subst hpe
  obtain ⟨o, ho⟩ := Int.eq_ofNat_of_zero_le hi.off.1
  have hoN : st.offset.toNat = o := by omega
  rw [hoN] at hp hnext
  have holt : o < q.points.length := by
    rw [hps]; by_contra hc
    rw [List.getElem?_eq_none (by omega)] at hp; simp at hp
  obtain ⟨n, hnn⟩ : ∃ n : Nat, st.steps = n + 1 := ⟨(st.steps - 1).toNat, by omega⟩
  obtain ⟨h1, h2⟩ := EnvSeq.run_along hW hN n hi (by omega)
  have hsplit : ticks st.steps.toNat = ticks n ++ [.step true] := by
    rw [hnn]; unfold ticks
    rw [show ((n : Int) + 1).toNat = n + 1 by omega, List.replicate_succ']
  have hlast := EnvSeq.step_last hW (st := st.along q n) (o := o) ho holt (by
    show st.steps - n = 1
    omega)
  have hfu : ∃ k, q.fuel = k + 1 := ⟨2 * q.length.toNat + 1, rfl⟩
  obtain ⟨k, hk⟩ := hfu
  rw [hk] at hlast
  have hfin : ∃ r st', q.step (st.along q n) = .ok (r, st') ∧ st'.value = p2.value := by
    have heff : effOffset b z { st.along q n with
          steps := 0
          shiftedValue := (st.along q n).endValue
          value := (st.along q n).endValue / 2 ^ q.fracShift
          offset := (o + 1 : Nat) } (o + 1)
        = next := by rw [hnext]; rfl
    have hval : st.endValue / 2 ^ q.fracShift = p2.value := by rw [he, mul_pow_ediv]
    rcases hn with hn | ⟨p', hp', hs'⟩
    · rw [EnvSeq.fetch_end hW k (o + 1) _ .step rfl (by rw [heff, hps]; exact hn)] at hlast
      exact ⟨_, _, hlast, hval⟩
    · rw [EnvSeq.fetch_load hW hN k (o + 1) _ .step rfl p' (by rw [heff, hps]; exact hp') hs'
        (by
          show -1073741824 ≤ st.endValue ∧ st.endValue ≤ 1073741824
          have := hnum.en; omega)] at hlast
      exact ⟨_, _, hlast, hval⟩
  obtain ⟨r, st', hr', hv'⟩ := hfin
  refine ⟨st', (List.range n).map (fun i => (SeqRet.step, (st.along q (i + 1)).value)) ++
    [(r, st'.value)], ?_, hv'⟩
  rw [hsplit, EnvSeq.run_append, h1]
  simp only [ok_bind, EnvSeq.run, EnvSeq.exec, hr', pure_eq_ok]

/-- C26: from the moment a point with `m` steps is chosen, the (unrounded) value after `j` ticks
differs from the straight line to the point by less than `j` units of precision. -/
theorem C26_straight (ps : List EnvPoint) (so sl : Int) (q : EnvSeq) (hu : UsualEnv ps so sl)
    (hq : EnvSeq.create ps so sl = .ok (some q)) (st : SeqState) (hr : q.Reach st)
    (p : EnvPoint) (hp : ps[st.offset.toNat]? = some p) (hs : 0 < st.steps)
    (hm : st.steps = p.steps) (j : Nat) (hj : (j : Int) < st.steps) :
    ∃ st' out x, q.run st (ticks j) = .ok (st', out) ∧ st'.value = x / 2 ^ q.fracShift ∧
      -(j * p.steps) ≤ p.steps * (x - st.shiftedValue) -
          j * (p.value * 2 ^ q.fracShift - st.shiftedValue) ∧
      p.steps * (x - st.shiftedValue) - j * (p.value * 2 ^ q.fracShift - st.shiftedValue) ≤
        j * p.steps := by
  obtain ⟨hW, hps, hN⟩ := usual_W hu hq
  have hi := hr.inv hW hN
  obtain ⟨hnum, _, _, hw⟩ := hi.num trivial
  obtain ⟨hnf, p2, hp2, he, hle, ht, hrem⟩ := hw hs
  have hpe : p2 = p := by
    rw [hps, hp] at hp2; injection hp2 with h; exact h.symm
  subst hpe
  refine ⟨_, _, st.shiftedValue + j * st.delta, (EnvSeq.run_along hW hN j hi hj).1, rfl, ?_⟩
  rw [← he]
  have e : p2.steps * (st.shiftedValue + j * st.delta - st.shiftedValue) -
      j * (st.endValue - st.shiftedValue) =
      -(j * (st.endValue - st.shiftedValue - st.delta * st.steps)) := by rw [← hm]; ring
  rw [e]
  have a1 := Int.mul_le_mul_of_nonneg_left (Int.le_of_lt hrem.1) (Int.natCast_nonneg j)
  have a2 := Int.mul_le_mul_of_nonneg_left (Int.le_of_lt hrem.2) (Int.natCast_nonneg j)
  rw [Int.mul_neg] at a1
  omega

/-- 0 to 1000 in 3 steps, then to −500 in 4: 0 333 666 1000 625 250 −125 −500. -/
example : ∃ q, EnvSeq.create [⟨3, 1000⟩, ⟨4, -500⟩] 2 0 = .ok (some q) ∧
    (q.run {} (.setPhase .attack :: ticks 8)).map (·.2.map (·.2)) =
      .ok [0, 333, 666, 1000, 625, 250, -125, -500, -500] :=
  ⟨⟨[⟨3, 1000⟩, ⟨4, -500⟩], 2, 2, 0, 20⟩, by decide +kernel, by decide +kernel⟩

/-- The hypotheses of the three theorems at that envelope, one tick after the attack. -/
example : UsualEnv [⟨3, 1000⟩, ⟨4, -500⟩] 2 0 ∧
    EnvSeq.Reach ⟨[⟨3, 1000⟩, ⟨4, -500⟩], 2, 2, 0, 20⟩
      { phase := .attack, steps := 3, delta := 349525333, offset := 0, value := 0,
        shiftedValue := 0, endValue := 1048576000 } := by
  refine ⟨⟨by decide, by decide, by decide, by decide, by decide⟩, [.setPhase .attack],
    [(.step, 0)], ?_, by decide +kernel⟩
  intro op hop
  simp at hop; subst hop; trivial

/-- C26 fails for points with 2^31 steps or more: they are reached after a single tick. -/
theorem C26_steps_refuted :
    ∃ q, EnvSeq.create [⟨2147483649, 100⟩, ⟨5, 0⟩] 2 0 = .ok (some q) ∧
      (q.run {} [.setPhase .attack, .step true]).map (·.2) = .ok [(.step, 0), (.step, 100)] :=
  ⟨⟨[⟨2147483649, 100⟩, ⟨5, 0⟩], 2, 2, 0, 23⟩, by decide +kernel, by decide +kernel⟩

end BK
