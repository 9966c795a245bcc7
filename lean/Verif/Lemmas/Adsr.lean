import Verif.Lemmas.EnvRun
/-! Trajectories of envelopes, and ADSR envelopes. -/
namespace BK

/-- State after one tick. -/
def EnvSeq.nextSt (q : EnvSeq) (st : SeqState) : SeqState :=
  match q.step st with
  | .ok r => r.2
  | .error _ => st

/-- Report of one tick. -/
def EnvSeq.nextRet (q : EnvSeq) (st : SeqState) : SeqRet :=
  match q.step st with
  | .ok r => r.1
  | .error _ => .none

/-- State after `n` ticks. -/
def EnvSeq.after (q : EnvSeq) (st : SeqState) : Nat → SeqState
  | 0 => st
  | n + 1 => q.nextSt (q.after st n)

theorem EnvSeq.after_add (q : EnvSeq) (st : SeqState) (m n : Nat) :
    q.after st (m + n) = q.after (q.after st m) n := by
  induction n with
  | zero => rfl
  | succ n ih => show q.nextSt (q.after st (m + n)) = q.nextSt _; rw [ih]

theorem EnvSeq.step_next {q : EnvSeq} {so sl : Nat} (hq : q.W so sl) (hN : q.N) {st : SeqState}
    (h : EnvInv True q st) : q.step st = .ok (q.nextRet st, q.nextSt st) ∧
      EnvInv True q (q.nextSt st) := by
  obtain ⟨r, hr, hi, _⟩ := (EnvSeq.step_inv hq (fun _ => hN) st h).get trivial
  unfold EnvSeq.nextRet EnvSeq.nextSt
  rw [hr]
  exact ⟨rfl, hi⟩

theorem EnvSeq.run_after {q : EnvSeq} {so sl : Nat} (hq : q.W so sl) (hN : q.N) {st : SeqState}
    (h : EnvInv True q st) (n : Nat) : q.run st (ticks n) = .ok (q.after st n,
      (List.range n).map fun i => (q.nextRet (q.after st i), (q.after st (i + 1)).value)) ∧
    EnvInv True q (q.after st n) := by
  induction n with
  | zero => exact ⟨rfl, h⟩
  | succ n ih =>
    obtain ⟨h1, h2⟩ := ih
    obtain ⟨h3, h4⟩ := EnvSeq.step_next hq hN h2
    refine ⟨?_, h4⟩
    have hsplit : ticks (n + 1) = ticks n ++ [.step true] := by
      unfold ticks; rw [List.replicate_succ']
    rw [hsplit, EnvSeq.run_append, h1]
    simp only [ok_bind, EnvSeq.run, EnvSeq.exec, h3, pure_eq_ok]
    rw [List.range_succ, List.map_append]
    rfl

theorem EnvSeq.after_along {q : EnvSeq} {so sl : Nat} (hq : q.W so sl) (hN : q.N) {st : SeqState}
    (h : EnvInv True q st) (j : Nat) (hj : (j : Int) < st.steps) : q.after st j = st.along q j := by
  have h1 := (EnvSeq.run_after hq hN h j).1
  rw [(EnvSeq.run_along hq hN j h hj).1] at h1
  injection h1 with h1
  exact (congrArg Prod.fst h1).symm

theorem EnvSeq.after_seg {q : EnvSeq} {so sl : Nat} (hq : q.W so sl) (hN : q.N) {st : SeqState}
    (h : EnvInv True q st) (o m : Nat) (ho : st.offset = o) (holt : o < q.points.length)
    (hm : st.steps = m) (hpos : 0 < m) (r : SeqRet) (x : SeqState)
    (hx : q.fetch q.fuel { st.along q (m - 1) with
      steps := 0
      shiftedValue := st.endValue
      value := st.endValue / 2 ^ q.fracShift
      offset := (o + 1 : Nat) } .step = .ok (r, x)) :
    q.after st m = x ∧ q.nextRet (q.after st (m - 1)) = r := by
  have e : m = m - 1 + 1 := by omega
  have hal := EnvSeq.after_along hq hN h (m - 1) (by omega)
  have hlast := EnvSeq.step_last hq (st := st.along q (m - 1)) (o := o) ho holt (by
    show st.steps - ((m - 1 : Nat) : Int) = 1
    omega)
  have hst : q.step (q.after st (m - 1)) = .ok (r, x) := by rw [hal, hlast]; exact hx
  constructor
  · rw [e]
    show q.nextSt (q.after st (m - 1)) = x
    unfold EnvSeq.nextSt; rw [hst]
  · unfold EnvSeq.nextRet; rw [hst]

/-- A finished state stays as it is. -/
theorem EnvSeq.after_finished (q : EnvSeq) (st : SeqState) (h : st.offset = INT_MAX) (n : Nat) :
    q.after st n = st ∧ q.nextRet st = .none := by
  have hs : q.step st = .ok (.none, st) := by
    unfold EnvSeq.step; rw [if_pos h]; rfl
  constructor
  · induction n with
    | zero => rfl
    | succ n ih =>
      show q.nextSt (q.after st n) = st
      rw [ih]; unfold EnvSeq.nextSt; rw [hs]
  · unfold EnvSeq.nextRet; rw [hs]

/-- State right after a point with steps was chosen. -/
def loaded (q : EnvSeq) (ph : SeqPhase) (k : Nat) (sh : Int) (p : EnvPoint) : SeqState :=
  ⟨ph, p.steps, (p.value * 2 ^ q.fracShift - sh).tdiv p.steps, k, sh / 2 ^ q.fracShift, sh,
    p.value * 2 ^ q.fracShift⟩

/-! ### Values stay within the hull of the points -/

theorem EnvSeq.fetch_hull {q : EnvSeq} {lo hi : Int}
    (hp : ∀ p ∈ q.points, lo ≤ p.value ∧ p.value ≤ hi) :
    ∀ (fuel : Nat) (st : SeqState) (res : SeqRet) (r : SeqRet × SeqState),
      q.fetch fuel st res = .ok r →
      lo * 2 ^ q.fracShift ≤ st.shiftedValue ∧ st.shiftedValue ≤ hi * 2 ^ q.fracShift →
      lo * 2 ^ q.fracShift ≤ r.2.shiftedValue ∧ r.2.shiftedValue ≤ hi * 2 ^ q.fracShift := by
  intro fuel
  induction fuel with
  | zero => intro st res r h; cases h
  | succ fuel ih =>
    intro st res r h hst
    rw [EnvSeq.fetch_succ] at h
    obtain ⟨se, _, h⟩ := bind_ok_iff.1 h
    dsimp only at h
    generalize (if (decide (st.phase = .attack) && decide (st.offset ≥ se)) = true then
      q.sustainOffset else st.offset) = eff at h
    split at h
    · obtain ⟨p, hrd, h⟩ := bind_ok_iff.1 h
      have hmem : p ∈ q.points := by
        unfold rd at hrd
        split at hrd
        · split at hrd
          · rename_i x hx
            injection hrd with hrd
            subst hrd
            exact List.mem_of_getElem? hx
          · cases hrd
        · cases hrd
      split at h
      · obtain ⟨e, _, h⟩ := bind_ok_iff.1 h
        obtain ⟨d, _, h⟩ := bind_ok_iff.1 h
        obtain ⟨δ, _, h⟩ := bind_ok_iff.1 h
        injection h with h
        subst h
        exact hst
      · obtain ⟨e, he, h⟩ := bind_ok_iff.1 h
        obtain ⟨d, _, h⟩ := bind_ok_iff.1 h
        refine ih _ _ r h ?_
        show lo * 2 ^ q.fracShift ≤ e ∧ e ≤ hi * 2 ^ q.fracShift
        rw [(i32_eq_ok_iff.1 he).2]
        have := hp p hmem
        have h2 : (0 : Int) ≤ 2 ^ q.fracShift := Int.le_of_lt (two_pow_pos _)
        exact ⟨Int.mul_le_mul_of_nonneg_right this.1 h2, Int.mul_le_mul_of_nonneg_right this.2 h2⟩
    · injection h with h
      subst h
      exact hst

def InHull (q : EnvSeq) (lo hi : Int) (st : SeqState) : Prop :=
  lo * 2 ^ q.fracShift ≤ st.shiftedValue ∧ st.shiftedValue ≤ hi * 2 ^ q.fracShift

theorem EnvSeq.step_hull {q : EnvSeq} {lo hi : Int}
    (hp : ∀ p ∈ q.points, lo ≤ p.value ∧ p.value ≤ hi) {st : SeqState} (hi' : EnvInv True q st)
    (hst : InHull q lo hi st) (r : SeqRet × SeqState) (h : q.step st = .ok r) :
    InHull q lo hi r.2 := by
  unfold EnvSeq.step at h
  split at h
  · injection h with h; subst h; exact hst
  · split at h
    · rename_i hs0
      obtain ⟨_, h0, hmax, hw⟩ := hi'.num trivial
      obtain ⟨_, p, hpp, he, _, ht, _⟩ := hw (by omega)
      have hv := hp p (List.mem_of_getElem? hpp)
      have h2 : (0 : Int) ≤ 2 ^ q.fracShift := Int.le_of_lt (two_pow_pos _)
      have hen : lo * 2 ^ q.fracShift ≤ st.endValue ∧ st.endValue ≤ hi * 2 ^ q.fracShift := by
        rw [he]
        exact ⟨Int.mul_le_mul_of_nonneg_right hv.1 h2, Int.mul_le_mul_of_nonneg_right hv.2 h2⟩
      obtain ⟨s1, hs1, h⟩ := bind_ok_iff.1 h
      split at h
      · obtain ⟨s, hs, h⟩ := bind_ok_iff.1 h
        injection h with h
        subst h
        have := (i32_eq_ok_iff.1 hs).2
        have hb := toward_bounds (by omega) ht
        unfold InHull at *
        show _ ≤ s ∧ s ≤ _
        omega
      · obtain ⟨o, _, h⟩ := bind_ok_iff.1 h
        exact EnvSeq.fetch_hull hp _ _ _ r h hen
    · exact EnvSeq.fetch_hull hp _ _ _ r h hst

theorem EnvSeq.exec_hull {q : EnvSeq} {so sl : Nat} {lo hi : Int} (hq : q.W so sl) (hN : q.N)
    (hp : ∀ p ∈ q.points, lo ≤ p.value ∧ p.value ≤ hi) {st : SeqState} (hi' : EnvInv True q st)
    (hst : InHull q lo hi st) (op : SeqOp)
    (hop : ∀ v, op = .setValue v → lo ≤ v ∧ v ≤ hi) (r : SeqRet × SeqState)
    (h : q.exec st op = .ok r) : InHull q lo hi r.2 := by
  have hlt := hq.lt
  have hle := hq.le
  cases op with
  | step d => exact EnvSeq.step_hull hp hi' hst r h
  | setPhase ph =>
    cases ph with
    | mute =>
      have h : q.setPhase st .mute = .ok r := h
      unfold EnvSeq.setPhase at h
      obtain ⟨s, hs, h⟩ := bind_ok_iff.1 h
      injection h with h
      subst h
      have hs := (i32_eq_ok_iff.1 hs).2
      show lo * 2 ^ q.fracShift ≤ s ∧ s ≤ hi * 2 ^ q.fracShift
      rw [hs, (hi'.num trivial).1.eq]
      have h2 : (0 : Int) < 2 ^ q.fracShift := two_pow_pos _
      unfold InHull at hst
      have a1 : lo ≤ st.shiftedValue / 2 ^ q.fracShift := (Int.le_ediv_iff_mul_le h2).2 hst.1
      have a2 : st.shiftedValue / 2 ^ q.fracShift * 2 ^ q.fracShift ≤ st.shiftedValue :=
        Int.ediv_mul_le _ (by omega)
      have a3 := Int.mul_le_mul_of_nonneg_right a1 (Int.le_of_lt h2)
      omega
    | attack =>
      have h : q.setPhase st .attack = .ok r := h
      unfold EnvSeq.setPhase at h
      refine EnvSeq.step_hull hp ?_ ?_ r h
      · refine ⟨by show (0 : Int) ≤ 0 ∧ (0 : Int) ≤ 2147483647; omega, fun b => ?_⟩
        have hn := (hi'.num b).1
        refine ⟨⟨hn.sh, hn.en, hn.eq⟩, Int.le_refl 0, by show (0 : Int) < 2147483648; omega, fun h0 => absurd h0 (by simp)⟩
      · exact hst
    | release =>
      have h : q.setPhase st .release = .ok r := h
      unfold EnvSeq.setPhase at h
      obtain ⟨o, ho, h⟩ := bind_ok_iff.1 h
      have ho := (i32_eq_ok_iff.1 ho).2
      rw [hq.hso, hq.hsl] at ho
      refine EnvSeq.step_hull hp ?_ ?_ r h
      · refine ⟨?_, fun b => ?_⟩
        · show 0 ≤ o ∧ o ≤ 2147483647
          omega
        have hn := (hi'.num b).1
        refine ⟨⟨hn.sh, hn.en, hn.eq⟩, Int.le_refl 0, by show (0 : Int) < 2147483648; omega, fun h0 => absurd h0 (by simp)⟩
      · exact hst
  | setValue v =>
    have hv := hop v rfl
    have h2 : (0 : Int) ≤ 2 ^ q.fracShift := Int.le_of_lt (two_pow_pos _)
    have key : ∀ s, q.setValue st v = .ok s → InHull q lo hi s := by
      intro s hs
      unfold EnvSeq.setValue at hs
      obtain ⟨w, hw, hs⟩ := bind_ok_iff.1 hs
      have hw := (i32_eq_ok_iff.1 hw).2
      have hh : lo * 2 ^ q.fracShift ≤ w ∧ w ≤ hi * 2 ^ q.fracShift := by
        rw [hw]
        exact ⟨Int.mul_le_mul_of_nonneg_right hv.1 h2, Int.mul_le_mul_of_nonneg_right hv.2 h2⟩
      split at hs
      · obtain ⟨_, _, hs⟩ := bind_ok_iff.1 hs
        obtain ⟨_, _, hs⟩ := bind_ok_iff.1 hs
        injection hs with hs
        subst hs
        exact hh
      · injection hs with hs
        subst hs
        exact hh
    have h : (do let s ← q.setValue st v; return (SeqRet.none, s) : C _) = .ok r := h
    obtain ⟨s, hs, h⟩ := bind_ok_iff.1 h
    injection h with h
    subst h
    exact key s hs

theorem EnvSeq.run_hull {q : EnvSeq} {so sl : Nat} {lo hi : Int} (hq : q.W so sl) (hN : q.N)
    (hp : ∀ p ∈ q.points, lo ≤ p.value ∧ p.value ≤ hi) (ops : List SeqOp) :
    ∀ (st : SeqState) (t : SeqState × List (SeqRet × Int)), EnvInv True q st → InHull q lo hi st →
    (∀ op ∈ ops, op.Fits q ∧ ∀ v, op = .setValue v → lo ≤ v ∧ v ≤ hi) →
    q.run st ops = .ok t → InHull q lo hi t.1 ∧ ∀ x ∈ t.2, lo ≤ x.2 ∧ x.2 ≤ hi := by
  induction ops with
  | nil =>
    intro st t _ hst _ h
    injection h with h; subst h
    exact ⟨hst, by simp⟩
  | cons op ops ih =>
    intro st t hinv hst hf h
    unfold EnvSeq.run at h
    obtain ⟨r, hr, h⟩ := bind_ok_iff.1 h
    obtain ⟨u, hu, h⟩ := bind_ok_iff.1 h
    injection h with h; subst h
    have hfo := hf op (by simp)
    have hinv2 := EnvSeq.exec_inv hq (fun _ => hN) st hinv op (fun _ => hfo.1)
    rw [hr] at hinv2
    have hinv2 : EnvInv True q r.2 := hinv2
    have hh := EnvSeq.exec_hull hq hN hp hinv hst op hfo.2 r hr
    obtain ⟨k1, k2⟩ := ih r.2 u hinv2 hh (fun o ho => hf o (by simp [ho])) hu
    refine ⟨k1, ?_⟩
    intro x hx
    rcases List.mem_cons.1 hx with rfl | hx
    · have h2 : (0 : Int) < 2 ^ q.fracShift := two_pow_pos _
      have e := (hinv2.num trivial).1.eq
      unfold InHull at hh
      show lo ≤ r.2.value ∧ r.2.value ≤ hi
      rw [e]
      refine ⟨(Int.le_ediv_iff_mul_le h2).2 hh.1, ?_⟩
      have := Int.ediv_le_ediv h2 hh.2
      rw [mul_pow_ediv] at this
      exact this
    · exact k2 x hx

/-! ### ADSR -/

/-- The envelope made for ADSR arguments. -/
def adsrSeq (a d s r : Int) : EnvSeq := ⟨adsrPoints a d s r, 4, 2, 1, 15⟩

theorem adsr_usual {a d s r : Int} (ha : 0 ≤ a ∧ a < 2147483648) (hd : 0 ≤ d ∧ d < 2147483648)
    (hs : 0 ≤ s ∧ s ≤ 32767) (hr : 0 ≤ r ∧ r < 2147483648) :
    UsualEnv (adsrPoints a d s r) 2 1 := by
  refine ⟨by simp [adsrPoints], by decide, by decide, ?_, ?_⟩
  · intro p hp
    simp only [adsrPoints, List.mem_cons, List.not_mem_nil, or_false] at hp
    rcases hp with rfl | rfl | rfl | rfl <;> (try simp only []) <;> omega
  · intro p hp
    simp only [adsrPoints, List.mem_cons, List.not_mem_nil, or_false] at hp
    rcases hp with rfl | rfl | rfl | rfl <;> (try simp only []) <;> omega

theorem adsr_frac {a d s r : Int} (hs : 0 ≤ s ∧ s ≤ 32767) :
    fracShiftOf (adsrPoints a d s r) = .ok 15 := by
  have h1 : cmax 0 32767 = 32767 := by decide
  have h2 : cmax 32767 s = 32767 := by unfold cmax; split <;> omega
  have h3 : cmax 32767 0 = 32767 := by decide
  have hm : maxAbs (adsrPoints a d s r) 0 = .ok 32767 := by
    unfold adsrPoints
    simp only [maxAbs, pure_eq_ok, ok_bind, if_neg (by omega : ¬ s < 0),
      if_neg (by omega : ¬ (32767 : Int) < 0), if_neg (by omega : ¬ (0 : Int) < 0), h1, h2, h3]
  unfold fracShiftOf
  rw [hm]
  simp only [ok_bind]
  rfl

theorem adsr_created {a d s r : Int} (ha : 0 ≤ a ∧ a < 2147483648) (hd : 0 ≤ d ∧ d < 2147483648)
    (hs : 0 ≤ s ∧ s ≤ 32767) (hr : 0 ≤ r ∧ r < 2147483648) :
    adsrCreate a d s r = .ok (some (adsrSeq a d s r)) := by
  have hu := adsr_usual ha hd hs hr
  unfold adsrCreate
  rw [EnvSeq.create_eq hu.short hu.hso hu.hsl, adsr_frac hs]
  have hc : envCheck (adsrPoints a d s r)
      (sustainBegin (adsrPoints a d s r).length 2) (sustainSize (adsrPoints a d s r).length 2 1) =
      true := by
    have e1 : sustainBegin (adsrPoints a d s r).length 2 = 2 := by
      simp [adsrPoints, sustainBegin]
    have e2 : sustainSize (adsrPoints a d s r).length 2 1 = 1 := by
      simp [adsrPoints, sustainSize, sustainBegin]
    rw [e1, e2]
    simp [envCheck, adsrPoints, sumSteps, wrapI32]
  rw [if_pos hc]
  simp [adsrSeq, adsrPoints, sustainBegin, sustainSize]

theorem loaded_num {q : EnvSeq} {ph : SeqPhase} {k : Nat} {sh : Int} {p : EnvPoint}
    (hN : q.N) (hm : p ∈ q.points) (hpos : 0 < p.steps) (hk : q.points[k]? = some p)
    (hlt : q.points.length < 268435456)
    (hsh : -1073741824 ≤ sh ∧ sh ≤ 1073741824) : EnvInv True q (loaded q ph k sh p) := by
  have hkl : k < q.points.length := by
    by_contra hc
    rw [List.getElem?_eq_none (by omega)] at hk; simp at hk
  refine ⟨?_, fun _ => ⟨⟨hsh, hN.val p hm, rfl⟩, Int.le_of_lt hpos, hN.steps p hm, fun _ => ?_⟩⟩
  · show 0 ≤ (k : Int) ∧ (k : Int) ≤ 2147483647
    omega
  · refine ⟨?_, p, ?_, rfl, Int.le_refl _, toward_tdiv hpos, tdiv_rem hpos⟩
    · show (k : Int) ≠ INT_MAX
      omega
    · show q.points[(k : Int).toNat]? = some p
      simpa using hk

section
variable {a d s r : Int} (ha : 0 ≤ a ∧ a < 2147483648) (hd : 0 ≤ d ∧ d < 2147483648)
  (hs : 0 ≤ s ∧ s ≤ 32767) (hr : 0 ≤ r ∧ r < 2147483648)
include ha hd hs hr

theorem adsr_WN : (adsrSeq a d s r).W 2 1 ∧ (adsrSeq a d s r).N := by
  have h := usual_W (adsr_usual ha hd hs hr) (adsr_created ha hd hs hr)
  have e1 : sustainBegin (adsrPoints a d s r).length 2 = 2 := by
    simp [adsrPoints, sustainBegin]
  have e2 : sustainSize (adsrPoints a d s r).length 2 1 = 1 := by
    simp [adsrPoints, sustainSize, sustainBegin]
  rw [e1, e2] at h
  exact ⟨h.1, h.2.2⟩

theorem adsr_fetch2 (fuel : Nat) (x : SeqState) (res : SeqRet) (hp : x.phase = .attack)
    (ho : x.offset = 2 ∨ x.offset = 3)
    (hsh : -1073741824 ≤ x.shiftedValue ∧ x.shiftedValue ≤ 1073741824) :
    ∃ ret, ret ≠ .finish ∧ (res ≠ .finish → (adsrSeq a d s r).fetch (fuel + 1) x res =
      .ok (ret, loaded (adsrSeq a d s r) .attack 2 x.shiftedValue ⟨240, s⟩)) := by
  obtain ⟨hW, hN⟩ := adsr_WN ha hd hs hr
  have key : ∀ o : Nat, x.offset = o → effOffset 2 1 x o = 2 → (adsrSeq a d s r).fetch (fuel + 1) x res =
      .ok (if x.phase = .attack ∧ 2 + 1 ≤ o then .rep else res,
        loaded (adsrSeq a d s r) .attack 2 x.shiftedValue ⟨240, s⟩) := by
    intro o ho1 he
    have := EnvSeq.fetch_load hW hN fuel o x res ho1 ⟨240, s⟩ (by rw [he]; rfl)
      (by show (240 : Int) ≠ 0; omega) hsh
    rw [this, he, ← hp]
    rfl
  rcases ho with ho | ho
  · by_cases hres : res = .finish
    · exact ⟨.step, by simp, fun h => absurd hres h⟩
    · refine ⟨res, hres, fun _ => ?_⟩
      rw [key 2 ho (by simp [effOffset])]
      simp
  · refine ⟨.rep, by simp, fun _ => ?_⟩
    rw [key 3 ho (by simp [effOffset, hp])]
    simp [hp]

/-- Where the second point leads. -/
theorem adsr_fetch1 (fuel : Nat) (x : SeqState) (res : SeqRet) (hp : x.phase = .attack)
    (ho : x.offset = 1) (hres : res ≠ .finish) (hx : x.shiftedValue = 32767 * 2 ^ 15) :
    ∃ ret, ret ≠ .finish ∧ (adsrSeq a d s r).fetch (fuel + 2) x res =
      .ok (ret, if d ≠ 0 then loaded (adsrSeq a d s r) .attack 1 (32767 * 2 ^ 15) ⟨d, s⟩
        else loaded (adsrSeq a d s r) .attack 2 (s * 2 ^ 15) ⟨240, s⟩) := by
  obtain ⟨hW, hN⟩ := adsr_WN ha hd hs hr
  have he : effOffset 2 1 x 1 = 1 := by simp [effOffset]
  by_cases h0 : d = 0
  · subst h0
    rw [EnvSeq.fetch_jump hW hN (fuel + 1) 1 x res ho ⟨0, s⟩ (by rw [he]; rfl) rfl, he]
    rw [if_neg (by omega), if_neg (by omega)]
    obtain ⟨ret, h1, h2⟩ := adsr_fetch2 ha hd hs hr fuel
      { x with offset := ((1 + 1 : Nat) : Int), steps := 0, shiftedValue := s * 2 ^ 15, value := s }
      res hp (.inl rfl) (by
        show -1073741824 ≤ s * 2 ^ 15 ∧ s * 2 ^ 15 ≤ 1073741824
        omega)
    exact ⟨ret, h1, h2 hres⟩
  · rw [EnvSeq.fetch_load hW hN (fuel + 1) 1 x res ho ⟨d, s⟩ (by rw [he]; rfl) h0
      (by rw [hx]; omega), he]
    refine ⟨res, hres, ?_⟩
    rw [if_neg (by omega), if_pos h0, hx, hp]
    rfl

/-- Where the first point leads. -/
theorem adsr_fetch0 (fuel : Nat) (x : SeqState) (hp : x.phase = .attack) (ho : x.offset = 0)
    (hx : -1073741824 ≤ x.shiftedValue ∧ x.shiftedValue ≤ 1073741824) :
    ∃ ret, ret ≠ .finish ∧ (adsrSeq a d s r).fetch (fuel + 3) x .step =
      .ok (ret, if a ≠ 0 then loaded (adsrSeq a d s r) .attack 0 x.shiftedValue ⟨a, 32767⟩
        else if d ≠ 0 then loaded (adsrSeq a d s r) .attack 1 (32767 * 2 ^ 15) ⟨d, s⟩
        else loaded (adsrSeq a d s r) .attack 2 (s * 2 ^ 15) ⟨240, s⟩) := by
  obtain ⟨hW, hN⟩ := adsr_WN ha hd hs hr
  have he : effOffset 2 1 x 0 = 0 := by simp [effOffset]
  by_cases h0 : a = 0
  · subst h0
    rw [EnvSeq.fetch_jump hW hN (fuel + 2) 0 x .step ho ⟨0, 32767⟩ (by rw [he]; rfl) rfl, he]
    rw [if_neg (by omega), if_neg (by omega)]
    exact adsr_fetch1 ha hd hs hr fuel _ .step hp rfl (by simp) rfl
  · rw [EnvSeq.fetch_load hW hN (fuel + 2) 0 x .step ho ⟨a, 32767⟩ (by rw [he]; rfl) h0 hx, he]
    refine ⟨.step, by simp, ?_⟩
    rw [if_neg (by omega), if_pos h0, hp]
    rfl

end

section
variable {a d s r : Int} (ha : 0 ≤ a ∧ a < 2147483648) (hd : 0 ≤ d ∧ d < 2147483648)
  (hs : 0 ≤ s ∧ s ≤ 32767) (hr : 0 ≤ r ∧ r < 2147483648)
include ha hd hs hr

/-- Holding the sustain level. -/
theorem adsr_hold (n : Nat) :
    ((adsrSeq a d s r).after (loaded (adsrSeq a d s r) .attack 2 (s * 2 ^ 15) ⟨240, s⟩) n).value = s ∧
    (adsrSeq a d s r).nextRet
      ((adsrSeq a d s r).after (loaded (adsrSeq a d s r) .attack 2 (s * 2 ^ 15) ⟨240, s⟩) n) ≠
        .finish := by
  obtain ⟨hW, hN⟩ := adsr_WN ha hd hs hr
  let Hold : SeqState → Prop := fun x => EnvInv True (adsrSeq a d s r) x ∧ x.phase = .attack ∧
    x.offset = 2 ∧ x.shiftedValue = s * 2 ^ 15 ∧ x.endValue = s * 2 ^ 15 ∧ x.delta = 0 ∧
    0 < x.steps ∧ x.value = s
  have h0 : Hold (loaded (adsrSeq a d s r) .attack 2 (s * 2 ^ 15) ⟨240, s⟩) := by
    refine ⟨loaded_num hN (by simp [adsrSeq, adsrPoints]) (by simp) rfl
      (by simp [adsrSeq, adsrPoints]) (by omega), rfl, rfl, rfl, rfl, ?_, by show (0 : Int) < 240; omega, ?_⟩
    · show (s * 2 ^ 15 - s * 2 ^ 15).tdiv 240 = 0
      rw [Int.sub_self]; rfl
    · exact mul_pow_ediv s 15
  have hstep : ∀ x, Hold x → Hold ((adsrSeq a d s r).nextSt x) ∧
      (adsrSeq a d s r).nextRet x ≠ .finish := by
    rintro x ⟨hi, h1, h2, h3, h4, h5, h6, h7⟩
    by_cases hone : 1 < x.steps
    · obtain ⟨k1, k2⟩ := EnvSeq.step_along hW hN hi hone
      have e : (adsrSeq a d s r).nextSt x = x.along (adsrSeq a d s r) 1 := by
        unfold EnvSeq.nextSt; rw [k1]
      have e2 : (adsrSeq a d s r).nextRet x = .step := by
        unfold EnvSeq.nextRet; rw [k1]
      rw [e, e2]
      refine ⟨⟨k2, h1, h2, ?_, h4, h5, ?_, ?_⟩, by simp⟩
      · show x.shiftedValue + ((1 : Nat) : Int) * x.delta = s * 2 ^ 15
        rw [h5, h3]; simp
      · show 0 < x.steps - ((1 : Nat) : Int)
        omega
      · show (x.shiftedValue + ((1 : Nat) : Int) * x.delta) / 2 ^ 15 = s
        rw [h5, h3, Int.mul_zero, Int.add_zero, mul_pow_ediv]
    · have hl := EnvSeq.step_last hW (o := 2) h2 (by simp [adsrSeq, adsrPoints]) (by omega : x.steps = 1)
      obtain ⟨ret, k1, k2⟩ := adsr_fetch2 ha hd hs hr 9
        { x with steps := 0, shiftedValue := x.endValue,
                 value := x.endValue / 2 ^ (adsrSeq a d s r).fracShift,
                 offset := ((2 + 1 : Nat) : Int) } .step h1 (.inr rfl) (by
          show -1073741824 ≤ x.endValue ∧ x.endValue ≤ 1073741824
          rw [h4]; omega)
      have k2 := k2 (by simp)
      have hfu : (adsrSeq a d s r).fuel = 9 + 1 := rfl
      rw [hfu, k2] at hl
      have e : (adsrSeq a d s r).nextSt x = loaded (adsrSeq a d s r) .attack 2 (s * 2 ^ 15) ⟨240, s⟩ := by
        unfold EnvSeq.nextSt; rw [hl, ← h4]
      have e2 : (adsrSeq a d s r).nextRet x = ret := by
        unfold EnvSeq.nextRet; rw [hl]
      rw [e, e2]
      exact ⟨h0, k1⟩
  have hall : ∀ n, Hold ((adsrSeq a d s r).after
      (loaded (adsrSeq a d s r) .attack 2 (s * 2 ^ 15) ⟨240, s⟩) n) := by
    intro n
    induction n with
    | zero => exact h0
    | succ n ih => exact (hstep _ ih).1
  exact ⟨(hall n).2.2.2.2.2.2.2, (hstep _ (hall n)).2⟩

/-- State after the attack segment. -/
theorem adsr_seg0 (sh : Int) (hsh : -1073741824 ≤ sh ∧ sh ≤ 1073741824) (h0 : a ≠ 0) :
    (adsrSeq a d s r).after (loaded (adsrSeq a d s r) .attack 0 sh ⟨a, 32767⟩) a.toNat =
      (if d ≠ 0 then loaded (adsrSeq a d s r) .attack 1 (32767 * 2 ^ 15) ⟨d, s⟩
        else loaded (adsrSeq a d s r) .attack 2 (s * 2 ^ 15) ⟨240, s⟩) ∧
    (adsrSeq a d s r).nextRet ((adsrSeq a d s r).after
      (loaded (adsrSeq a d s r) .attack 0 sh ⟨a, 32767⟩) (a.toNat - 1)) ≠ .finish := by
  obtain ⟨hW, hN⟩ := adsr_WN ha hd hs hr
  have hi : EnvInv True (adsrSeq a d s r) (loaded (adsrSeq a d s r) .attack 0 sh ⟨a, 32767⟩) :=
    loaded_num hN (by simp [adsrSeq, adsrPoints]) (by show 0 < a; omega) rfl
      (by simp [adsrSeq, adsrPoints]) hsh
  obtain ⟨ret, k1, k2⟩ := adsr_fetch1 ha hd hs hr 8
    { (loaded (adsrSeq a d s r) .attack 0 sh ⟨a, 32767⟩).along (adsrSeq a d s r) (a.toNat - 1) with
      steps := 0
      shiftedValue := (loaded (adsrSeq a d s r) .attack 0 sh ⟨a, 32767⟩).endValue
      value := (loaded (adsrSeq a d s r) .attack 0 sh ⟨a, 32767⟩).endValue /
        2 ^ (adsrSeq a d s r).fracShift
      offset := ((0 + 1 : Nat) : Int) } .step rfl rfl (by simp) rfl
  have := EnvSeq.after_seg hW hN hi 0 a.toNat rfl (by simp [adsrSeq, adsrPoints])
    (by show a = (a.toNat : Int); omega) (by omega) ret _ k2
  exact ⟨this.1, by rw [this.2]; exact k1⟩

/-- State after the decay segment. -/
theorem adsr_seg1 (h0 : d ≠ 0) :
    (adsrSeq a d s r).after (loaded (adsrSeq a d s r) .attack 1 (32767 * 2 ^ 15) ⟨d, s⟩) d.toNat =
      loaded (adsrSeq a d s r) .attack 2 (s * 2 ^ 15) ⟨240, s⟩ ∧
    (adsrSeq a d s r).nextRet ((adsrSeq a d s r).after
      (loaded (adsrSeq a d s r) .attack 1 (32767 * 2 ^ 15) ⟨d, s⟩) (d.toNat - 1)) ≠ .finish := by
  obtain ⟨hW, hN⟩ := adsr_WN ha hd hs hr
  have hi : EnvInv True (adsrSeq a d s r)
      (loaded (adsrSeq a d s r) .attack 1 (32767 * 2 ^ 15) ⟨d, s⟩) :=
    loaded_num hN (by simp [adsrSeq, adsrPoints]) (by show 0 < d; omega) rfl
      (by simp [adsrSeq, adsrPoints]) (by omega)
  obtain ⟨ret, k1, k2⟩ := adsr_fetch2 ha hd hs hr 9
    { (loaded (adsrSeq a d s r) .attack 1 (32767 * 2 ^ 15) ⟨d, s⟩).along (adsrSeq a d s r)
        (d.toNat - 1) with
      steps := 0
      shiftedValue := (loaded (adsrSeq a d s r) .attack 1 (32767 * 2 ^ 15) ⟨d, s⟩).endValue
      value := (loaded (adsrSeq a d s r) .attack 1 (32767 * 2 ^ 15) ⟨d, s⟩).endValue /
        2 ^ (adsrSeq a d s r).fracShift
      offset := ((1 + 1 : Nat) : Int) } .step rfl (.inl rfl) (by
        show -1073741824 ≤ s * 2 ^ 15 ∧ s * 2 ^ 15 ≤ 1073741824
        omega)
  have k2 := k2 (by simp)
  have := EnvSeq.after_seg hW hN hi 1 d.toNat rfl (by simp [adsrSeq, adsrPoints])
    (by show d = (d.toNat : Int); omega) (by omega) ret _ k2
  exact ⟨this.1, by rw [this.2]; exact k1⟩

end

end BK
