import Verif.Lemmas.Adsr
import Verif.Lemmas.Line
import Verif.Props.Envelope
/-! Properties of ADSR envelopes: C27. -/
namespace BK

/-- C26/C27: whatever calls are made, the values of an envelope stay between the smallest and the
largest value of its points, the initial 0 and the values set. -/
theorem C26_hull (ps : List EnvPoint) (so sl : Int) (q : EnvSeq) (hu : UsualEnv ps so sl)
    (hq : EnvSeq.create ps so sl = .ok (some q)) (lo hi : Int) (h0 : lo ≤ 0 ∧ 0 ≤ hi)
    (hp : ∀ p ∈ ps, lo ≤ p.value ∧ p.value ≤ hi) (ops : List SeqOp)
    (hf : ∀ op ∈ ops, op.Fits q ∧ ∀ v, op = .setValue v → lo ≤ v ∧ v ≤ hi) :
    ∃ st out, q.run {} ops = .ok (st, out) ∧ ∀ x ∈ out, lo ≤ x.2 ∧ x.2 ≤ hi := by
  obtain ⟨hW, hps, hN⟩ := usual_W hu hq
  obtain ⟨t, ht⟩ := C24_envelope_usual ps so sl q hu hq ops (fun op ho => (hf op ho).1)
  refine ⟨t.1, t.2, ht, ?_⟩
  have h2 : (0 : Int) < 2 ^ q.fracShift := two_pow_pos _
  refine (EnvSeq.run_hull hW hN (by rw [hps]; exact hp) ops {} t (EnvInv.init True q) ?_ hf ht).2
  constructor
  · show lo * 2 ^ q.fracShift ≤ 0
    exact Int.mul_nonpos_of_nonpos_of_nonneg h0.1 (Int.le_of_lt h2)
  · show 0 ≤ hi * 2 ^ q.fracShift
    exact Int.mul_nonneg h0.2 (Int.le_of_lt h2)

/-- C27: an ADSR volume never leaves 0..maximum, whatever calls are made. -/
theorem C27_range (a d s r : Int) (ha : 0 ≤ a ∧ a < 2147483648) (hd : 0 ≤ d ∧ d < 2147483648)
    (hs : 0 ≤ s ∧ s ≤ 32767) (hr : 0 ≤ r ∧ r < 2147483648) (ops : List SeqOp)
    (hf : ∀ v, .setValue v ∈ ops → 0 ≤ v ∧ v ≤ 32767) :
    ∃ q st out, adsrCreate a d s r = .ok (some q) ∧ q.run {} ops = .ok (st, out) ∧
      ∀ x ∈ out, 0 ≤ x.2 ∧ x.2 ≤ 32767 := by
  have hu := adsr_usual ha hd hs hr
  have hc := adsr_created ha hd hs hr
  obtain ⟨st, out, h1, h2⟩ := C26_hull _ 2 1 _ hu hc 0 32767 (by omega) (by
    intro p hp
    simp only [adsrPoints, List.mem_cons, List.not_mem_nil, or_false] at hp
    rcases hp with rfl | rfl | rfl | rfl <;> (try simp only []) <;> omega) ops (by
    intro op hop
    refine ⟨?_, fun v hv => hf v (by rw [← hv]; exact hop)⟩
    cases op with
    | setValue v =>
      have := hf v hop
      show -1073741824 ≤ v * 2 ^ 15 ∧ v * 2 ^ 15 ≤ 1073741824
      omega
    | setPhase p => trivial
    | step d => trivial)
  exact ⟨_, st, out, hc, h1, h2⟩

/-- The course of an ADSR envelope after attack. -/
theorem adsr_attack (a d r : Nat) (s : Int) (ha : a < 2147483648) (hd : d < 2147483648)
    (hs : 0 ≤ s ∧ s ≤ 32767) (hr : r < 2147483648) :
    ∀ st, EnvInv True (adsrSeq a d s r) st → st.value ≤ 32767 →
      ∃ (f : Nat → Int) (rep : Nat → SeqRet),
        (∀ n, ∃ st', (adsrSeq a d s r).run st (.setPhase .attack :: ticks n) =
          .ok (st', (List.range (n + 1)).map fun i => (rep i, f i))) ∧
        (∀ i, rep i ≠ .finish) ∧
        (0 < a → f 0 = st.value) ∧
        (∀ j, j < a → f j ≤ 32767 ∧ (j + 1 < a → f j ≤ f (j + 1))) ∧
        (0 < d → f a = 32767) ∧
        (∀ j, j < d → s ≤ f (a + j) ∧ (j + 1 < d → f (a + j + 1) ≤ f (a + j))) ∧
        (∀ n, a + d ≤ n → f n = s) ∧
        (a ≤ 32768 → ∀ j, j < a → NearLine a st.value 32767 j (f j)) ∧
        (d ≤ 32768 → ∀ j, j < d → NearLine d 32767 s j (f (a + j))) := by
  have ha' : 0 ≤ (a : Int) ∧ (a : Int) < 2147483648 := by omega
  have hd' : 0 ≤ (d : Int) ∧ (d : Int) < 2147483648 := by omega
  have hr' : 0 ≤ (r : Int) ∧ (r : Int) < 2147483648 := by omega
  obtain ⟨hW, hN⟩ := adsr_WN ha' hd' hs hr'
  intro st hinv hval
  have hnum := (hinv.num trivial).1
  obtain ⟨ret0, hret0, hf0⟩ := adsr_fetch0 ha' hd' hs hr' 7
    { st with steps := 0, offset := 0, phase := .attack } rfl rfl hnum.sh
  have hL0 := fun h0 => adsr_seg0 ha' hd' hs hr' st.shiftedValue hnum.sh h0
  have hL1 := fun h0 => adsr_seg1 ha' hd' hs hr' h0
  have hH := fun n => adsr_hold ha' hd' hs hr' n
  have hI0 : (a : Int) ≠ 0 → EnvInv True (adsrSeq a d s r)
      (loaded (adsrSeq a d s r) .attack 0 st.shiftedValue ⟨a, 32767⟩) := fun h =>
    loaded_num hN (by simp [adsrSeq, adsrPoints]) (by show 0 < (a : Int); omega) rfl
      (by simp [adsrSeq, adsrPoints]) hnum.sh
  have hI1 : (d : Int) ≠ 0 → EnvInv True (adsrSeq a d s r)
      (loaded (adsrSeq a d s r) .attack 1 (32767 * 2 ^ 15) ⟨d, s⟩) := fun h =>
    loaded_num hN (by simp [adsrSeq, adsrPoints]) (by show 0 < (d : Int); omega) rfl
      (by simp [adsrSeq, adsrPoints]) (by omega)
  have hset : (adsrSeq a d s r).setPhase st .attack = .ok (ret0,
      if (a : Int) ≠ 0 then loaded (adsrSeq a d s r) .attack 0 st.shiftedValue ⟨a, 32767⟩
      else if (d : Int) ≠ 0 then loaded (adsrSeq a d s r) .attack 1 (32767 * 2 ^ 15) ⟨d, s⟩
      else loaded (adsrSeq a d s r) .attack 2 (s * 2 ^ 15) ⟨240, s⟩) := by
    unfold EnvSeq.setPhase EnvSeq.step
    simp only
    rw [if_neg (by decide), if_neg (by decide)]
    exact hf0
  have hinvA := EnvSeq.setPhase_inv hW (fun _ => hN) st hinv .attack
  rw [hset] at hinvA
  have hinvA : EnvInv True _ _ := hinvA.1
  dsimp only at hinvA
  -- the state behind the attack segment
  generalize hB : (if (d : Int) ≠ 0 then loaded (adsrSeq a d s r) .attack 1 (32767 * 2 ^ 15) ⟨d, s⟩
      else loaded (adsrSeq a d s r) .attack 2 (s * 2 ^ 15) ⟨240, s⟩) = B1 at *
  generalize hA : (if (a : Int) ≠ 0 then
      loaded (adsrSeq a d s r) .attack 0 st.shiftedValue ⟨a, 32767⟩ else B1) = A0 at *
  -- rests: ticks in a segment
  have hretal : ∀ x, EnvInv True (adsrSeq a d s r) x → ∀ j : Nat, (j : Int) + 1 < x.steps →
      (adsrSeq a d s r).nextRet ((adsrSeq a d s r).after x j) = .step := by
    intro x hx j hj
    rw [EnvSeq.after_along hW hN hx j (by omega)]
    have := (EnvSeq.step_along hW hN (EnvSeq.run_along hW hN j hx (by omega)).2 (by
      show 1 < x.steps - j
      omega)).1
    unfold EnvSeq.nextRet; rw [this]
  have hBa : (adsrSeq a d s r).after A0 a = B1 := by
    by_cases h0 : (a : Int) ≠ 0
    · rw [if_pos h0] at hA
      rw [← hA]
      have := (hL0 h0).1
      simpa using this
    · rw [if_neg h0] at hA
      have : a = 0 := by omega
      subst this
      rw [← hA]; rfl
  have hCd : (adsrSeq a d s r).after B1 d =
      loaded (adsrSeq a d s r) .attack 2 (s * 2 ^ 15) ⟨240, s⟩ := by
    by_cases h0 : (d : Int) ≠ 0
    · rw [if_pos h0] at hB
      rw [← hB]
      have := (hL1 h0).1
      simpa using this
    · rw [if_neg h0] at hB
      have : d = 0 := by omega
      subst this
      rw [← hB]; rfl
  refine ⟨fun i => ((adsrSeq a d s r).after A0 i).value,
    fun i => if i = 0 then ret0 else (adsrSeq a d s r).nextRet ((adsrSeq a d s r).after A0 (i - 1)),
    ?_, ?_, ?_, ?_, ?_, ?_, ?_, ?_, ?_⟩
  · intro n
    refine ⟨(adsrSeq a d s r).after A0 n, ?_⟩
    have hrun := (EnvSeq.run_after hW hN hinvA n).1
    unfold EnvSeq.run EnvSeq.exec
    simp only [hset, ok_bind]
    rw [hrun, List.range_succ_eq_map]
    simp only [ok_bind, pure_eq_ok, List.map_cons, List.map_map]
    rfl
  · intro i
    dsimp only
    split
    · exact hret0
    · rename_i hi0
      by_cases h1 : i ≤ a
      · have h0 : (a : Int) ≠ 0 := by omega
        rw [if_pos h0] at hA
        by_cases h2 : i = a
        · subst h2
          have := (hL0 h0).2
          rw [hA] at this
          simpa using this
        · rw [hretal A0 hinvA (i - 1) (by
            rw [← hA]; show ((i - 1 : Nat) : Int) + 1 < (a : Int); omega)]
          simp
      · have e : i - 1 = a + (i - 1 - a) := by omega
        rw [e, EnvSeq.after_add, hBa]
        generalize i - 1 - a = k
        by_cases h3 : k < d
        · have h0 : (d : Int) ≠ 0 := by omega
          rw [if_pos h0] at hB
          by_cases h4 : k + 1 = d
          · have := (hL1 h0).2
            rw [hB] at this
            have e2 : (d : Int).toNat - 1 = k := by omega
            rw [e2] at this
            exact this
          · rw [hretal B1 (by rw [← hB]; exact hI1 h0) k (by
              rw [← hB]; show (k : Int) + 1 < (d : Int); omega)]
            simp
        · have e2 : k = d + (k - d) := by omega
          rw [e2, EnvSeq.after_add, hCd]
          exact (hH _).2
  · intro h0
    rw [if_pos (by omega)] at hA
    show A0.value = st.value
    rw [← hA, hnum.eq]; rfl
  · intro j hj
    have h0 : (a : Int) ≠ 0 := by omega
    rw [if_pos h0] at hA
    have hv : A0.value ≤ 32767 := by
      have : A0.value = st.value := by rw [← hA, hnum.eq]; rfl
      omega
    have hst : A0.steps = a := by rw [← hA]; rfl
    have ho := (along_order (q := adsrSeq a d s r) A0 32767 (by rw [← hA]; rfl)
      (by rw [← hA]; rfl) (by
        rw [← hA]
        exact toward_tdiv (by show 0 < (a : Int); omega))).1 hv j (by rw [hst]; omega)
    dsimp only
    rw [EnvSeq.after_along hW hN hinvA j (by rw [hst]; omega)]
    refine ⟨ho.1, fun hj1 => ?_⟩
    rw [EnvSeq.after_along hW hN hinvA (j + 1) (by rw [hst]; push_cast; omega)]
    exact ho.2 (by rw [hst]; omega)
  · intro h0
    show ((adsrSeq a d s r).after A0 a).value = 32767
    rw [hBa, ← hB, if_pos (by omega)]
    exact mul_pow_ediv 32767 15
  · intro j hj
    have h0 : (d : Int) ≠ 0 := by omega
    rw [if_pos h0] at hB
    have hIB : EnvInv True (adsrSeq a d s r) B1 := by rw [← hB]; exact hI1 h0
    have hst : B1.steps = d := by rw [← hB]; rfl
    have hv : s ≤ B1.value := by
      have : B1.value = 32767 := by rw [← hB]; exact mul_pow_ediv 32767 15
      omega
    have ho := (along_order (q := adsrSeq a d s r) B1 s (by rw [← hB]; rfl)
      (by rw [← hB]; rfl) (by
        rw [← hB]
        exact toward_tdiv (by show 0 < (d : Int); omega))).2 hv j (by rw [hst]; omega)
    dsimp only
    rw [show a + j + 1 = a + (j + 1) by omega, EnvSeq.after_add, EnvSeq.after_add, hBa]
    rw [EnvSeq.after_along hW hN hIB j (by rw [hst]; omega)]
    refine ⟨ho.1, fun hj1 => ?_⟩
    rw [EnvSeq.after_along hW hN hIB (j + 1) (by rw [hst]; push_cast; omega)]
    exact ho.2 (by rw [hst]; omega)
  · intro n hn
    show ((adsrSeq a d s r).after A0 n).value = s
    rw [show n = a + (d + (n - (a + d))) by omega, EnvSeq.after_add, hBa, EnvSeq.after_add, hCd]
    exact (hH _).1
  · intro hle j hj
    rw [if_pos (by omega)] at hA
    dsimp only
    rw [EnvSeq.after_along hW hN hinvA j (by rw [← hA]; show (j : Int) < (a : Int); omega), ← hA, hnum.eq]
    exact tdiv_nearLine hj hle
  · intro hle j hj
    have h0 : (d : Int) ≠ 0 := by omega
    rw [if_pos h0] at hB
    dsimp only
    rw [EnvSeq.after_add, hBa, EnvSeq.after_along hW hN (by rw [← hB]; exact hI1 h0) j (by rw [← hB]; show (j : Int) < (d : Int); omega), ← hB]
    have := tdiv_nearLine (sv := 32767 * 2 ^ 15) (E := s) hj hle
    rw [mul_pow_ediv 32767 15] at this
    exact this

/-- C27: after attack (from any state at or below the maximum) the volume rises to the maximum in
`a` ticks, falls to the sustain level in `d` ticks, and holds it for as long as the note is held;
the end is never reported.  Rise and fall follow straight lines if they take at most 32768 ticks.  `f i` and `rep i` are the value and the report after `i` ticks. -/
theorem C27_attack (a d r : Nat) (s : Int) (ha : a < 2147483648) (hd : d < 2147483648)
    (hs : 0 ≤ s ∧ s ≤ 32767) (hr : r < 2147483648) :
    ∃ q, adsrCreate a d s r = .ok (some q) ∧ ∀ st, q.Reach st → st.value ≤ 32767 →
      ∃ (f : Nat → Int) (rep : Nat → SeqRet),
        (∀ n, ∃ st', q.run st (.setPhase .attack :: ticks n) =
          .ok (st', (List.range (n + 1)).map fun i => (rep i, f i))) ∧
        (∀ i, rep i ≠ .finish) ∧
        (0 < a → f 0 = st.value) ∧
        (∀ j, j < a → f j ≤ 32767 ∧ (j + 1 < a → f j ≤ f (j + 1))) ∧
        (0 < d → f a = 32767) ∧
        (∀ j, j < d → s ≤ f (a + j) ∧ (j + 1 < d → f (a + j + 1) ≤ f (a + j))) ∧
        (∀ n, a + d ≤ n → f n = s) ∧
        (a ≤ 32768 → ∀ j, j < a → NearLine a st.value 32767 j (f j)) ∧
        (d ≤ 32768 → ∀ j, j < d → NearLine d 32767 s j (f (a + j))) := by
  have ha' : 0 ≤ (a : Int) ∧ (a : Int) < 2147483648 := by omega
  have hd' : 0 ≤ (d : Int) ∧ (d : Int) < 2147483648 := by omega
  have hr' : 0 ≤ (r : Int) ∧ (r : Int) < 2147483648 := by omega
  obtain ⟨hW, hN⟩ := adsr_WN ha' hd' hs hr'
  exact ⟨_, adsr_created ha' hd' hs hr', fun st hreach => adsr_attack a d r s ha hd hs hr st (hreach.inv hW hN)⟩

/-- The course of an ADSR envelope after release. -/
theorem adsr_release (a d r : Nat) (s : Int) (ha : a < 2147483648) (hd : d < 2147483648)
    (hs : 0 ≤ s ∧ s ≤ 32767) (hr : r < 2147483648) :
    ∀ st, EnvInv True (adsrSeq a d s r) st → 0 ≤ st.value →
      ∃ (f : Nat → Int) (rep : Nat → SeqRet),
        (∀ n, ∃ st', (adsrSeq a d s r).run st (.setPhase .release :: ticks n) =
          .ok (st', (List.range (n + 1)).map fun i => (rep i, f i))) ∧
        (∀ i, rep i = .finish ↔ i = r) ∧
        (0 < r → f 0 = st.value) ∧
        (∀ j, j < r → 0 ≤ f j ∧ (j + 1 < r → f (j + 1) ≤ f j)) ∧
        (∀ n, r ≤ n → f n = 0) ∧ (∀ n, r < n → rep n = .none) ∧
        (r ≤ 32768 → ∀ j, j < r → NearLine r st.value 0 j (f j)) := by
  have ha' : 0 ≤ (a : Int) ∧ (a : Int) < 2147483648 := by omega
  have hd' : 0 ≤ (d : Int) ∧ (d : Int) < 2147483648 := by omega
  have hr' : 0 ≤ (r : Int) ∧ (r : Int) < 2147483648 := by omega
  obtain ⟨hW, hN⟩ := adsr_WN ha' hd' hs hr'
  intro st hinv hval
  have hnum := (hinv.num trivial).1
  have hinvA := EnvSeq.setPhase_inv hW (fun _ => hN) st hinv .release
  -- the release itself
  have hset : ∃ ret0 A0, (adsrSeq a d s r).setPhase st .release = .ok (ret0, A0) ∧
      (ret0 = .finish ↔ r = 0) ∧
      (r ≠ 0 → A0 = loaded (adsrSeq a d s r) .release 3 st.shiftedValue ⟨r, 0⟩) ∧
      (r = 0 → A0.offset = INT_MAX ∧ A0.value = 0) := by
    have e : (adsrSeq a d s r).setPhase st .release = (adsrSeq a d s r).fetch (9 + 1)
        { st with steps := 0, offset := 3, phase := .release } .step := by
      unfold EnvSeq.setPhase
      have : i32 ((adsrSeq a d s r).sustainOffset + (adsrSeq a d s r).sustainLength) = .ok 3 := by
        rfl
      simp only [this, ok_bind]
      unfold EnvSeq.step
      simp only
      rw [if_neg (by decide), if_neg (by decide)]
      rfl
    rw [e]
    generalize hy : { st with steps := 0, offset := 3, phase := .release } = y
    have hy1 : y.phase = .release := by rw [← hy]
    have hy2 : y.offset = ((3 : Nat) : Int) := by rw [← hy]; rfl
    have hy3 : y.shiftedValue = st.shiftedValue := by rw [← hy]
    have he : ∀ x : SeqState, x.phase = .release → ∀ o, effOffset 2 1 x o = o := by
      intro x hx o; simp [effOffset, hx]
    by_cases h0 : r = 0
    · subst h0
      rw [EnvSeq.fetch_jump hW hN 9 3 y .step hy2 ⟨0, 0⟩ (by rw [he _ hy1]; rfl) rfl]
      rw [EnvSeq.fetch_end hW 8 4 _ _ (by rw [he _ hy1]) (by simp [effOffset, hy1, adsrSeq, adsrPoints])]
      exact ⟨_, _, rfl, by simp, fun h => absurd rfl h, fun _ => ⟨rfl, rfl⟩⟩
    · rw [EnvSeq.fetch_load hW hN 9 3 y .step hy2 ⟨r, 0⟩ (by rw [he _ hy1]; rfl)
        (by show (r : Int) ≠ 0; omega) (by rw [hy3]; exact hnum.sh)]
      refine ⟨_, _, rfl, by simp [h0, hy1], fun _ => ?_, fun h => absurd h h0⟩
      rw [he _ hy1, hy1, hy3]; rfl
  obtain ⟨ret0, A0, hset, hret0, hA, hZ⟩ := hset
  rw [hset] at hinvA
  have hinvA : EnvInv True (adsrSeq a d s r) A0 := hinvA.1
  -- the state behind the release segment
  have hend : ∃ Z, (adsrSeq a d s r).after A0 r = Z ∧ Z.offset = INT_MAX ∧ Z.value = 0 ∧
      (r ≠ 0 → (adsrSeq a d s r).nextRet ((adsrSeq a d s r).after A0 (r - 1)) = .finish) := by
    by_cases h0 : r = 0
    · refine ⟨A0, by rw [h0]; rfl, (hZ h0).1, (hZ h0).2, fun h => absurd h0 h⟩
    · have hA := hA h0
      have hfe := EnvSeq.fetch_end hW 9 4 { A0.along (adsrSeq a d s r) (r - 1) with
        steps := 0
        shiftedValue := A0.endValue
        value := A0.endValue / 2 ^ (adsrSeq a d s r).fracShift
        offset := ((3 + 1 : Nat) : Int) } .step rfl (by
          rw [hA]
          simp [effOffset, SeqState.along, loaded, adsrSeq, adsrPoints])
      have := EnvSeq.after_seg hW hN hinvA 3 r (by rw [hA]; rfl) (by simp [adsrSeq, adsrPoints])
        (by rw [hA]; rfl) (by omega) _ _ hfe
      refine ⟨_, this.1, rfl, ?_, fun _ => this.2⟩
      show A0.endValue / 2 ^ (adsrSeq a d s r).fracShift = 0
      rw [hA]; exact mul_pow_ediv 0 15
  obtain ⟨Z, hZ1, hZ2, hZ3, hZ4⟩ := hend
  have hafter : ∀ n, r ≤ n → (adsrSeq a d s r).after A0 n = Z := by
    intro n hn
    rw [show n = r + (n - r) by omega, EnvSeq.after_add, hZ1]
    exact (EnvSeq.after_finished _ Z hZ2 _).1
  have hretal : ∀ j : Nat, j + 1 < r →
      (adsrSeq a d s r).nextRet ((adsrSeq a d s r).after A0 j) = .step := by
    intro j hj
    have hst : A0.steps = r := by rw [hA (by omega)]; rfl
    rw [EnvSeq.after_along hW hN hinvA j (by omega)]
    have := (EnvSeq.step_along hW hN (EnvSeq.run_along hW hN j hinvA (by omega)).2 (by
      show 1 < A0.steps - j
      omega)).1
    unfold EnvSeq.nextRet; rw [this]
  have hnone : ∀ n, r < n → (if n = 0 then ret0 else
      (adsrSeq a d s r).nextRet ((adsrSeq a d s r).after A0 (n - 1))) = .none := by
    intro n hn
    rw [if_neg (by omega), hafter (n - 1) (by omega)]
    exact (EnvSeq.after_finished _ Z hZ2 0).2
  refine ⟨fun i => ((adsrSeq a d s r).after A0 i).value,
    fun i => if i = 0 then ret0 else (adsrSeq a d s r).nextRet ((adsrSeq a d s r).after A0 (i - 1)),
    ?_, ?_, ?_, ?_, ?_, hnone, ?_⟩
  · intro n
    refine ⟨(adsrSeq a d s r).after A0 n, ?_⟩
    have hrun := (EnvSeq.run_after hW hN hinvA n).1
    unfold EnvSeq.run EnvSeq.exec
    simp only [hset, ok_bind]
    rw [hrun, List.range_succ_eq_map]
    simp only [ok_bind, pure_eq_ok, List.map_cons, List.map_map]
    rfl
  · intro i
    dsimp only
    by_cases h1 : r < i
    · rw [hnone i h1]; constructor
      · intro h; cases h
      · intro h; omega
    · by_cases h2 : i = 0
      · rw [if_pos h2, hret0]; omega
      · rw [if_neg h2]
        by_cases h3 : i = r
        · subst h3
          simp [hZ4 h2]
        · rw [hretal (i - 1) (by omega)]
          simp [h3]
  · intro h0
    show A0.value = st.value
    rw [hA (by omega), hnum.eq]; rfl
  · intro j hj
    have hA := hA (by omega)
    have hst : A0.steps = r := by rw [hA]; rfl
    have hv : 0 ≤ A0.value := by
      have : A0.value = st.value := by rw [hA, hnum.eq]; rfl
      omega
    have ho := (along_order (q := adsrSeq a d s r) A0 0 (by rw [hA]; rfl)
      (by rw [hA]; rfl) (by
        rw [hA]
        exact toward_tdiv (by show 0 < (r : Int); omega))).2 hv j (by rw [hst]; omega)
    dsimp only
    rw [EnvSeq.after_along hW hN hinvA j (by rw [hst]; omega)]
    refine ⟨ho.1, fun hj1 => ?_⟩
    rw [EnvSeq.after_along hW hN hinvA (j + 1) (by rw [hst]; push_cast; omega)]
    exact ho.2 (by rw [hst]; omega)
  · intro n hn
    show ((adsrSeq a d s r).after A0 n).value = 0
    rw [hafter n hn]; exact hZ3
  · intro hle j hj
    have hA := hA (by omega)
    dsimp only
    rw [EnvSeq.after_along hW hN hinvA j (by rw [hA]; show (j : Int) < (r : Int); omega), hA, hnum.eq]
    exact tdiv_nearLine hj hle

/-- C27: after release (from any state) the volume falls to 0, which it has in tick `r` and from
then on; the end is reported in tick `r` and only there (tick 0 is the release itself).  It follows a straight line if `r` is at
most 32768. -/
theorem C27_release (a d r : Nat) (s : Int) (ha : a < 2147483648) (hd : d < 2147483648)
    (hs : 0 ≤ s ∧ s ≤ 32767) (hr : r < 2147483648) :
    ∃ q, adsrCreate a d s r = .ok (some q) ∧ ∀ st, q.Reach st → 0 ≤ st.value →
      ∃ (f : Nat → Int) (rep : Nat → SeqRet),
        (∀ n, ∃ st', q.run st (.setPhase .release :: ticks n) =
          .ok (st', (List.range (n + 1)).map fun i => (rep i, f i))) ∧
        (∀ i, rep i = .finish ↔ i = r) ∧
        (0 < r → f 0 = st.value) ∧
        (∀ j, j < r → 0 ≤ f j ∧ (j + 1 < r → f (j + 1) ≤ f j)) ∧
        (∀ n, r ≤ n → f n = 0) ∧ (∀ n, r < n → rep n = .none) ∧
        (r ≤ 32768 → ∀ j, j < r → NearLine r st.value 0 j (f j)) := by
  have ha' : 0 ≤ (a : Int) ∧ (a : Int) < 2147483648 := by omega
  have hd' : 0 ≤ (d : Int) ∧ (d : Int) < 2147483648 := by omega
  have hr' : 0 ≤ (r : Int) ∧ (r : Int) < 2147483648 := by omega
  obtain ⟨hW, hN⟩ := adsr_WN ha' hd' hs hr'
  exact ⟨_, adsr_created ha' hd' hs hr', fun st hreach => adsr_release a d r s ha hd hs hr st (hreach.inv hW hN)⟩

/-- Attack 2, decay 2, sustain 10000, release 4; released after 7 ticks. -/
example : ∃ q, adsrCreate 2 2 10000 4 = .ok (some q) ∧
    (q.run {} (.setPhase .attack :: ticks 7 ++ .setPhase .release :: ticks 6)).map (·.2.map (·.2)) =
      .ok [0, 16383, 32767, 21383, 10000, 10000, 10000, 10000,
           10000, 7500, 5000, 2500, 0, 0, 0] :=
  ⟨adsrSeq 2 2 10000 4, by decide +kernel, by decide +kernel⟩

/-- C27 needs fewer than 2^31 ticks: with 2^31 attack ticks the counter overflows. -/
theorem C27_ticks_refuted :
    ∃ q, adsrCreate 2147483648 10 100 10 = .ok (some q) ∧
      q.run {} [.setPhase .attack, .step true] = .error .overflow :=
  ⟨adsrSeq 2147483648 10 100 10, by decide +kernel, by decide +kernel⟩

end BK
