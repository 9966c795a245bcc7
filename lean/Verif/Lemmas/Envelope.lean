import Verif.Lemmas.Sequence
/-! Invariants of envelopes. -/
namespace BK

/-- Nothing but an overflow can happen, and not even that if `B` holds. -/
def Safe {α} (B : Prop) (r : C α) (P : α → Prop) : Prop :=
  match r with
  | .ok a => P a
  | .error e => e = .overflow ∧ ¬ B

theorem Safe.bind {α β} {B : Prop} {r : C α} {f : α → C β} {P : α → Prop} {Q : β → Prop}
    (h : Safe B r P) (hf : ∀ a, P a → Safe B (f a) Q) : Safe B (r >>= f) Q := by
  cases r with
  | ok a => exact hf a h
  | error e => exact h

theorem Safe.i32 {B : Prop} {x : Int} (h : B → InI32 x) : Safe B (i32 x) (fun y => y = x) := by
  unfold BK.i32
  split
  · rfl
  · exact ⟨rfl, fun b => by have := h b; contradiction⟩

theorem Safe.ok {α} {B : Prop} {a : α} {P : α → Prop} (h : P a) : Safe B (.ok a : C α) P := h

theorem Safe.mono {α} {B : Prop} {r : C α} {P Q : α → Prop} (h : Safe B r P)
    (hpq : ∀ a, P a → Q a) : Safe B r Q := by
  cases r with
  | ok a => exact hpq a h
  | error e => exact h

theorem Safe.get {α} {B : Prop} {r : C α} {P : α → Prop} (h : Safe B r P) (b : B) :
    ∃ a, r = .ok a ∧ P a := by
  cases r with
  | ok a => exact ⟨a, rfl, h⟩
  | error e => exact absurd b h.2

/-- `δ` leads towards the distance `d` without passing it within `s` steps. -/
def Toward (δ s d : Int) : Prop := (0 ≤ δ ∧ δ * s ≤ d) ∨ (δ ≤ 0 ∧ d ≤ δ * s)

theorem toward_tdiv {d s : Int} (hs : 0 < s) : Toward (d.tdiv s) s d := by
  by_cases h : 0 ≤ d
  · left
    obtain ⟨h1, h2, _⟩ : 0 ≤ d.tdiv s ∧ d.tdiv s * s ≤ d ∧ True := by
      have e : d.tdiv s = d / s := Int.tdiv_eq_ediv_of_nonneg h
      rw [e]
      exact ⟨Int.ediv_nonneg h (by omega), Int.ediv_mul_le _ (by omega), trivial⟩
    exact ⟨h1, h2⟩
  · right
    have e : d.tdiv s = -((-d) / s) := by
      have := Int.neg_tdiv (a := -d) (b := s)
      rw [Int.neg_neg] at this
      rw [this, Int.tdiv_eq_ediv_of_nonneg (by omega)]
    rw [e]
    have h1 : 0 ≤ (-d) / s := Int.ediv_nonneg (by omega) (by omega)
    have h2 : (-d) / s * s ≤ -d := Int.ediv_mul_le _ (by omega)
    refine ⟨by omega, ?_⟩
    rw [Int.neg_mul]; omega

/-- Structure of an envelope that can be played. -/
structure EnvSeq.W (q : EnvSeq) (so sl : Nat) : Prop where
  len : q.length = q.points.length
  lt : q.points.length < 268435456
  hso : q.sustainOffset = so
  hsl : q.sustainLength = sl
  le : so + sl ≤ q.points.length
  steps : ∀ p ∈ q.points, InU32 p.steps
  live : so = q.points.length ∨ ∃ i p, so ≤ i ∧ i < so + sl ∧ q.points[i]? = some p ∧ p.steps ≠ 0

/-- Numbers of an envelope that can be played without overflow. -/
structure EnvSeq.N (q : EnvSeq) : Prop where
  fs : q.fracShift ≤ 30
  steps : ∀ p ∈ q.points, p.steps < 2147483648
  val : ∀ p ∈ q.points, -1073741824 < p.value * 2 ^ q.fracShift ∧
    p.value * 2 ^ q.fracShift < 1073741824

/-- Numbers of a state that can go on without overflow. -/
structure StNum (q : EnvSeq) (st : SeqState) : Prop where
  sh : -1073741824 ≤ st.shiftedValue ∧ st.shiftedValue ≤ 1073741824
  en : -1073741824 < st.endValue ∧ st.endValue < 1073741824
  eq : st.value = st.shiftedValue / 2 ^ q.fracShift

/-- A state on its way to a point. -/
def OnWay (q : EnvSeq) (st : SeqState) : Prop :=
  0 < st.steps → st.offset ≠ INT_MAX ∧ ∃ p, q.points[st.offset.toNat]? = some p ∧
    st.endValue = p.value * 2 ^ q.fracShift ∧ st.steps ≤ p.steps ∧
    Toward st.delta st.steps (st.endValue - st.shiftedValue) ∧
    -p.steps < st.endValue - st.shiftedValue - st.delta * st.steps ∧
    st.endValue - st.shiftedValue - st.delta * st.steps < p.steps

/-- Invariant of envelope states. -/
structure EnvInv (B : Prop) (q : EnvSeq) (st : SeqState) : Prop where
  off : 0 ≤ st.offset ∧ st.offset ≤ 2147483647
  num : B → StNum q st ∧ 0 ≤ st.steps ∧ st.steps < 2147483648 ∧ OnWay q st

theorem floor_scale {s : Int} {k : Nat} (hk : k ≤ 30) (h1 : -1073741824 ≤ s) (h2 : s ≤ 1073741824) :
    -1073741824 ≤ s / 2 ^ k * 2 ^ k ∧ s / 2 ^ k * 2 ^ k ≤ 1073741824 := by
  have hp : (0 : Int) < 2 ^ k := two_pow_pos k
  have e : (2 : Int) ^ (30 - k) * 2 ^ k = 1073741824 := by
    rw [← Int.pow_add, show 30 - k + k = 30 by omega]; rfl
  have h3 : s / 2 ^ k * 2 ^ k ≤ s := Int.ediv_mul_le _ (by omega)
  have h4 : -((2 : Int) ^ (30 - k)) ≤ s / 2 ^ k := by
    rw [Int.le_ediv_iff_mul_le hp, Int.neg_mul, e]; exact h1
  have h5 : -((2 : Int) ^ (30 - k)) * 2 ^ k ≤ s / 2 ^ k * 2 ^ k :=
    Int.mul_le_mul_of_nonneg_right h4 (by omega)
  rw [Int.neg_mul, e] at h5
  omega

theorem StNum.va {q : EnvSeq} {st : SeqState} (h : StNum q st) (hq : q.N) :
    -1073741824 ≤ st.value * 2 ^ q.fracShift ∧ st.value * 2 ^ q.fracShift ≤ 1073741824 := by
  rw [h.eq]; exact floor_scale hq.fs h.sh.1 h.sh.2

theorem tdiv_rem {d s : Int} (hs : 0 < s) : -s < d - d.tdiv s * s ∧ d - d.tdiv s * s < s := by
  have e : d - d.tdiv s * s = d.tmod s := by
    have := Int.tmod_add_mul_tdiv d s
    rw [Int.mul_comm] at this
    omega
  rw [e]
  exact ⟨by have := Int.lt_tmod_of_pos d hs; omega, Int.tmod_lt_of_pos d hs⟩

/-- Iterations that the loop may still make. -/
def loopBound (len so sl i : Nat) (atk : Bool) (o : Nat) : Nat :=
  if atk && decide (so < len) then
    if o ≤ i then i - o + 1
    else if o < so + sl then so + sl - o + (i - so) + 1
    else i - so + 1
  else len - o + 1

theorem EnvSeq.fetch_succ (q : EnvSeq) (fuel : Nat) (st : SeqState) (res : SeqRet) :
    q.fetch (fuel + 1) st res = (do
      let sustainEnd ← i32 (q.sustainOffset + q.sustainLength)
      let wrap : Bool := decide (st.phase = .attack) && decide (st.offset ≥ sustainEnd)
      let offset := if wrap then q.sustainOffset else st.offset
      let res := if wrap then SeqRet.rep else res
      if offset < q.length then
        let p ← rd q.points offset
        if p.steps ≠ 0 then
          let e ← i32 (p.value * 2 ^ q.fracShift)
          let d ← i32 (e - st.shiftedValue)
          let delta ← i32 (d.tdiv (wrapI32 p.steps))
          return (res, { st with offset := offset, steps := wrapI32 p.steps, endValue := e,
                                 delta := delta, value := st.shiftedValue / 2 ^ q.fracShift })
        else
          let s ← i32 (p.value * 2 ^ q.fracShift)
          let o ← i32 (offset + 1)
          q.fetch fuel { st with offset := o, steps := 0, shiftedValue := s,
                                 value := s / 2 ^ q.fracShift } res
      else
        return (.finish, { st with offset := INT_MAX })) := rfl

theorem tdiv_in {d s : Int} (hs : 0 < s) (h1 : -2147483648 ≤ d) (h2 : d ≤ 2147483647) :
    InI32 (d.tdiv s) := by
  unfold InI32
  rcases toward_tdiv (d := d) hs with ⟨ha, hb⟩ | ⟨ha, hb⟩
  · have : d.tdiv s * 1 ≤ d.tdiv s * s := Int.mul_le_mul_of_nonneg_left (by omega) ha
    omega
  · have : d.tdiv s * s ≤ d.tdiv s * 1 := Int.mul_le_mul_of_nonpos_left ha (by omega)
    omega

theorem EnvSeq.fetch_safe {B : Prop} {q : EnvSeq} {so sl : Nat} (hq : q.W so sl) (hN : B → q.N)
    (i : Nat) (pi : EnvPoint) (hi : so = q.points.length ∨
      (so ≤ i ∧ i < so + sl ∧ q.points[i]? = some pi ∧ pi.steps ≠ 0)) :
    ∀ (fuel o : Nat) (st : SeqState) (res : SeqRet), st.offset = o →
      loopBound q.points.length so sl i (decide (st.phase = .attack)) o ≤ fuel →
      res ≠ .none → (B → StNum q st ∧ st.steps = 0) →
      Safe B (q.fetch fuel st res) (fun r => EnvInv B q r.2 ∧ r.2.phase = st.phase ∧ r.1 ≠ .none) := by
  have hle := hq.le
  have hlt := hq.lt
  intro fuel
  induction fuel with
  | zero =>
    intro o st res _ hb
    exfalso
    unfold loopBound at hb
    split at hb
    · split at hb
      · omega
      · split at hb <;> omega
    · omega
  | succ fuel ih =>
    intro o st res ho hb hres hnum
    rw [EnvSeq.fetch_succ, hq.hso, hq.hsl, i32_ok (by omega) (by omega)]
    simp only [ok_bind]
    generalize hwr : (decide (st.phase = .attack) && decide (st.offset ≥ (so : Int) + sl)) = wrap
    generalize hof : (if wrap = true then so else o) = eff
    have hof' : (if wrap = true then (so : Int) else st.offset) = (eff : Int) := by
      rw [← hof, ho]; split <;> rfl
    generalize hrs : (if wrap = true then SeqRet.rep else res) = res'
    have hres' : res' ≠ .none := by
      rw [← hrs]
      split
      · simp
      · exact hres
    rw [hof', hq.len]
    by_cases hlen : eff < q.points.length
    · rw [if_pos (by omega)]
      have hget : q.points[eff]? = some q.points[eff] := by simp [hlen]
      have hmem : q.points[eff] ∈ q.points := List.getElem_mem hlen
      have hrd : rd q.points (eff : Int) = .ok q.points[eff] := by
        unfold rd; simp [hlen]
      rw [hrd]
      simp only [ok_bind]
      generalize hp : q.points[eff] = p at *
      have hps := hq.steps p hmem
      unfold InU32 at hps
      by_cases hs : p.steps ≠ 0
      · rw [if_pos hs]
        refine (Safe.i32 fun b => ?_).bind ?_
        · have := (hN b).val p hmem
          unfold InI32; omega
        rintro e rfl
        refine (Safe.i32 fun b => ?_).bind ?_
        · have := (hN b).val p hmem
          have := (hnum b).1.sh
          unfold InI32; omega
        rintro d rfl
        refine (Safe.i32 fun b => ?_).bind ?_
        · have h1 := (hN b).val p hmem
          have h2 := (hnum b).1.sh
          have h3 := (hN b).steps p hmem
          have h4 : wrapI32 p.steps = p.steps := wrapI32_id (by omega) (by omega)
          rw [h4]
          exact tdiv_in (by omega) (by omega) (by omega)
        rintro δ rfl
        refine Safe.ok ⟨⟨?_, ?_⟩, rfl, hres'⟩
        · show 0 ≤ (eff : Int) ∧ (eff : Int) ≤ 2147483647
          omega
        · intro b
          have h1 := (hN b).val p hmem
          have h2 := (hnum b).1.sh
          have h3 := (hN b).steps p hmem
          have h4 : wrapI32 p.steps = p.steps := wrapI32_id (by omega) (by omega)
          refine ⟨⟨h2, h1, rfl⟩, ?_, ?_, ?_⟩
          · show 0 ≤ wrapI32 p.steps
            omega
          · show wrapI32 p.steps < 2147483648
            omega
          · intro _
            refine ⟨?_, p, ?_, rfl, ?_, ?_, ?_⟩
            · show (eff : Int) ≠ INT_MAX
              omega
            · show q.points[(eff : Int).toNat]? = some p
              simpa using hget
            · show wrapI32 p.steps ≤ p.steps
              omega
            · show Toward ((p.value * 2 ^ q.fracShift - st.shiftedValue).tdiv (wrapI32 p.steps))
                (wrapI32 p.steps) (p.value * 2 ^ q.fracShift - st.shiftedValue)
              rw [h4]
              exact toward_tdiv (by omega)
            · show -p.steps < p.value * 2 ^ q.fracShift - st.shiftedValue -
                  (p.value * 2 ^ q.fracShift - st.shiftedValue).tdiv (wrapI32 p.steps) *
                    wrapI32 p.steps ∧ p.value * 2 ^ q.fracShift - st.shiftedValue -
                  (p.value * 2 ^ q.fracShift - st.shiftedValue).tdiv (wrapI32 p.steps) *
                    wrapI32 p.steps < p.steps
              rw [h4]
              exact tdiv_rem (by omega)
      · have hs0 : p.steps = 0 := by omega
        rw [if_neg hs]
        refine (Safe.i32 fun b => ?_).bind ?_
        · have := (hN b).val p hmem
          unfold InI32; omega
        rintro s rfl
        rw [i32_ok (by omega) (by omega)]
        simp only [ok_bind]
        refine (ih (eff + 1) _ res' (by simp) ?_ hres' ?_).mono ?_
        · show loopBound q.points.length so sl i (decide (st.phase = .attack)) (eff + 1) ≤ fuel
          have hne : so < q.points.length → eff ≠ i := by
            intro h hei
            rcases hi with h1 | ⟨_, _, h1, h2⟩
            · omega
            · rw [hei, h1] at hget
              injection hget with hget
              rw [hget] at h2; exact h2 hs0
          unfold loopBound at hb ⊢
          by_cases hatk : st.phase = .attack
          · by_cases hsl : so < q.points.length
            · have hi' : so ≤ i ∧ i < so + sl := by
                rcases hi with h1 | ⟨h1, h2, _⟩ <;> omega
              simp only [hatk, hsl, decide_true, Bool.and_self, if_true, Bool.true_and] at hb hwr ⊢
              have hw : wrap = true ↔ so + sl ≤ o := by
                rw [← hwr, ho]; simp; omega
              have := hne hsl
              by_cases hwo : so + sl ≤ o
              · rw [if_pos (hw.2 hwo)] at hof
                rw [if_neg (by omega), if_neg (by omega)] at hb
                rw [if_pos (by omega)]; omega
              · rw [if_neg (fun h => hwo (hw.1 h))] at hof
                by_cases h1 : o ≤ i
                · rw [if_pos h1] at hb
                  rw [if_pos (by omega)]; omega
                · rw [if_neg h1, if_pos (by omega)] at hb
                  rw [if_neg (by omega)]
                  split <;> omega
            · simp only [hsl, decide_false, Bool.and_false] at hb ⊢
              have hw : wrap = true → so + sl ≤ o := by
                rw [← hwr, ho]; simp; omega
              have : wrap = false := by
                cases hwb : wrap with
                | false => rfl
                | true => rw [hwb] at hof; simp at hof; omega
              rw [this] at hof
              simp at hof hb ⊢
              omega
          · simp only [hatk, decide_false, Bool.false_and] at hb hwr ⊢
            rw [← hwr] at hof
            simp at hof hb ⊢
            omega
        · intro b
          have h1 := (hN b).val p hmem
          refine ⟨⟨?_, (hnum b).1.en, ?_⟩, rfl⟩
          · show -1073741824 ≤ p.value * 2 ^ q.fracShift ∧ p.value * 2 ^ q.fracShift ≤ 1073741824
            omega
          · rfl
        · intro r hr
          exact hr
    · rw [if_neg (by omega)]
      refine Safe.ok ⟨⟨?_, ?_⟩, rfl, by simp⟩
      · show (0 : Int) ≤ INT_MAX ∧ INT_MAX ≤ (2147483647 : Int)
        omega
      · intro b
        have h := hnum b
        refine ⟨⟨h.1.sh, h.1.en, h.1.eq⟩, ?_, ?_, ?_⟩
        · show 0 ≤ st.steps
          omega
        · show st.steps < 2147483648
          omega
        · intro h0
          have : 0 < st.steps := h0
          omega

theorem loopBound_le {len so sl i o : Nat} {atk : Bool} (h : so + sl ≤ len)
    (hi : so = len ∨ (so ≤ i ∧ i < so + sl)) : loopBound len so sl i atk o ≤ 2 * len + 2 := by
  unfold loopBound
  by_cases hlen : so < len
  · rcases hi with hi | hi
    · omega
    · split
      · split
        · omega
        · split <;> omega
      · omega
  · simp only [hlen, decide_false, Bool.and_false]
    simp only [Bool.false_eq_true, if_false]
    omega

theorem EnvSeq.fetch_inv {B : Prop} {q : EnvSeq} {so sl : Nat} (hq : q.W so sl) (hN : B → q.N)
    (st : SeqState) (res : SeqRet) (ho : 0 ≤ st.offset) (hres : res ≠ .none)
    (hnum : B → StNum q st ∧ st.steps = 0) :
    Safe B (q.fetch q.fuel st res)
      (fun r => EnvInv B q r.2 ∧ r.2.phase = st.phase ∧ r.1 ≠ .none) := by
  obtain ⟨o, ho'⟩ := Int.eq_ofNat_of_zero_le ho
  have hfuel : q.fuel = 2 * q.points.length + 2 := by
    unfold EnvSeq.fuel; rw [hq.len]; simp
  rcases hq.live with h | ⟨i, p, h1, h2, h3, h4⟩
  · exact EnvSeq.fetch_safe hq hN 0 ⟨0, 0⟩ (.inl h) _ o st res ho'
      (by rw [hfuel]; exact loopBound_le hq.le (.inl h)) hres hnum
  · exact EnvSeq.fetch_safe hq hN i p (.inr ⟨h1, h2, h3, h4⟩) _ o st res ho'
      (by rw [hfuel]; exact loopBound_le hq.le (.inr ⟨h1, h2⟩)) hres hnum

/-- A tick on the way to a point. -/
theorem onWay_advance {δ s d : Int} (hs : 1 < s) (h : Toward δ s d) : Toward δ (s - 1) (d - δ) := by
  have e : δ * (s - 1) = δ * s - δ := by ring
  unfold Toward at *
  rw [e]
  omega

/-- The distance after a tick keeps its sign and does not grow. -/
theorem toward_bounds {δ s d : Int} (hs : 1 ≤ s) (h : Toward δ s d) :
    (0 ≤ d → 0 ≤ δ ∧ δ ≤ d) ∧ (d ≤ 0 → δ ≤ 0 ∧ d ≤ δ) := by
  rcases h with ⟨h1, h2⟩ | ⟨h1, h2⟩
  · have : δ * 1 ≤ δ * s := Int.mul_le_mul_of_nonneg_left hs h1
    constructor <;> intro h <;> constructor <;> omega
  · have : δ * s ≤ δ * 1 := Int.mul_le_mul_of_nonpos_left h1 hs
    constructor <;> intro h <;> constructor <;> omega

theorem EnvSeq.step_inv {B : Prop} {q : EnvSeq} {so sl : Nat} (hq : q.W so sl) (hN : B → q.N)
    (st : SeqState) (h : EnvInv B q st) :
    Safe B (q.step st) (fun r => EnvInv B q r.2 ∧ r.2.phase = st.phase) := by
  unfold EnvSeq.step
  split
  · exact Safe.ok ⟨h, rfl⟩
  rename_i hne
  have hoff := h.off
  split
  · rename_i hs
    refine (Safe.i32 fun b => ?_).bind ?_
    · have := (h.num b).2
      unfold InI32; omega
    rintro s1 rfl
    split
    · rename_i hs1
      refine (Safe.i32 fun b => ?_).bind ?_
      · obtain ⟨hn, _, _, hw⟩ := h.num b
        obtain ⟨_, p, _, _, _, ht, _⟩ := hw (by omega)
        have h1 := toward_bounds (by omega) ht
        have h2 := hn.sh
        have h3 := hn.en
        unfold InI32; omega
      rintro sh rfl
      refine Safe.ok ⟨⟨h.off, fun b => ?_⟩, rfl⟩
      obtain ⟨hn, h0, hmax, hw⟩ := h.num b
      obtain ⟨hnf, p, hp, he, hle, ht, hr⟩ := hw (by omega)
      have h1 := toward_bounds (by omega) ht
      have h2 := hn.sh
      have h3 := hn.en
      have h4 : -1073741824 ≤ st.shiftedValue + st.delta ∧
          st.shiftedValue + st.delta ≤ 1073741824 := by omega
      refine ⟨⟨h4, h3, rfl⟩, ?_, ?_, ?_⟩
      · show 0 ≤ st.steps - 1
        omega
      · show st.steps - 1 < 2147483648
        omega
      · intro _
        refine ⟨hnf, p, hp, he, ?_, ?_, ?_⟩
        · show st.steps - 1 ≤ p.steps
          omega
        · show Toward st.delta (st.steps - 1) (st.endValue - (st.shiftedValue + st.delta))
          have := onWay_advance (by omega) ht
          rw [show st.endValue - (st.shiftedValue + st.delta) =
            st.endValue - st.shiftedValue - st.delta by omega]
          exact this
        · show -p.steps < st.endValue - (st.shiftedValue + st.delta) - st.delta * (st.steps - 1) ∧
            st.endValue - (st.shiftedValue + st.delta) - st.delta * (st.steps - 1) < p.steps
          have e : st.delta * (st.steps - 1) = st.delta * st.steps - st.delta := by ring
          rw [e]; omega
    · rename_i hs1
      rw [i32_ok (by omega) (by omega)]
      simp only [ok_bind]
      refine (EnvSeq.fetch_inv hq hN _ .step ?_ (by simp) ?_).mono ?_
      · show 0 ≤ st.offset + 1
        omega
      · intro b
        obtain ⟨hn, h0, hmax, hw⟩ := h.num b
        have h3 := hn.en
        refine ⟨⟨?_, h3, rfl⟩, ?_⟩
        · show -1073741824 ≤ st.endValue ∧ st.endValue ≤ 1073741824
          omega
        · show st.steps - 1 = 0
          omega
      · intro r hr
        exact ⟨hr.1, hr.2.1⟩
  · rename_i hs
    refine (EnvSeq.fetch_inv hq hN _ .step h.off.1 (by simp) ?_).mono ?_
    · intro b
      exact ⟨(h.num b).1, by omega⟩
    · intro r hr
      exact ⟨hr.1, hr.2.1⟩

theorem EnvSeq.setPhase_inv {B : Prop} {q : EnvSeq} {so sl : Nat} (hq : q.W so sl) (hN : B → q.N)
    (st : SeqState) (h : EnvInv B q st) (ph : SeqPhase) :
    Safe B (q.setPhase st ph) (fun r => EnvInv B q r.2 ∧ r.2.phase = ph) := by
  have hle := hq.le
  have hlt := hq.lt
  cases ph with
  | mute =>
    unfold EnvSeq.setPhase
    refine (Safe.i32 fun b => ?_).bind ?_
    · have := (h.num b).1.va (hN b)
      unfold InI32; omega
    rintro s rfl
    refine Safe.ok ⟨⟨?_, fun b => ?_⟩, rfl⟩
    · show 0 ≤ q.length ∧ q.length ≤ 2147483647
      rw [hq.len]; omega
    · refine ⟨⟨(h.num b).1.va (hN b), ?_, (mul_pow_ediv _ _).symm⟩, ?_, ?_, ?_⟩
      · show (-1073741824 : Int) < 0 ∧ (0 : Int) < 1073741824
        omega
      · exact Int.le_refl 0
      · show (0 : Int) < 2147483648
        omega
      · intro h0
        exact absurd h0 (by simp)
  | attack =>
    unfold EnvSeq.setPhase
    refine EnvSeq.step_inv hq hN _ ⟨?_, fun b => ?_⟩
    · show (0 : Int) ≤ 0 ∧ (0 : Int) ≤ 2147483647
      omega
    · have hn := (h.num b).1
      refine ⟨⟨hn.sh, hn.en, hn.eq⟩, Int.le_refl 0, ?_, ?_⟩
      · show (0 : Int) < 2147483648
        omega
      · intro h0
        exact absurd h0 (by simp)
  | release =>
    unfold EnvSeq.setPhase
    simp only
    rw [hq.hso, hq.hsl, i32_ok (by omega) (by omega)]
    simp only [ok_bind]
    refine EnvSeq.step_inv hq hN _ ⟨?_, fun b => ?_⟩
    · show (0 : Int) ≤ so + sl ∧ (so + sl : Int) ≤ 2147483647
      omega
    · have hn := (h.num b).1
      refine ⟨⟨hn.sh, hn.en, hn.eq⟩, Int.le_refl 0, ?_, ?_⟩
      · show (0 : Int) < 2147483648
        omega
      · intro h0
        exact absurd h0 (by simp)

theorem EnvSeq.exec_inv {B : Prop} {q : EnvSeq} {so sl : Nat} (hq : q.W so sl) (hN : B → q.N)
    (st : SeqState) (h : EnvInv B q st) (op : SeqOp) (hop : B → op.Fits q) :
    Safe B (q.exec st op) (fun r => EnvInv B q r.2) := by
  cases op with
  | setPhase p => exact (EnvSeq.setPhase_inv hq hN st h p).mono fun _ hr => hr.1
  | step d => exact (EnvSeq.step_inv hq hN st h).mono fun _ hr => hr.1
  | setValue v =>
    unfold EnvSeq.exec
    suffices H : Safe B (q.setValue st v) (fun s => EnvInv B q s) from
      H.bind fun s hs => Safe.ok hs
    unfold EnvSeq.setValue
    refine (Safe.i32 fun b => ?_).bind ?_
    · have := hop b
      simp only [SeqOp.Fits] at this
      unfold InI32; omega
    rintro s rfl
    split
    · rename_i hs
      refine (Safe.i32 fun b => ?_).bind ?_
      · have h1 := hop b
        have h2 := (h.num b).1.en
        simp only [SeqOp.Fits] at h1
        unfold InI32; omega
      rintro d rfl
      refine (Safe.i32 fun b => ?_).bind ?_
      · have h1 := hop b
        have h2 := h.num b
        have h3 := h2.1.en
        simp only [SeqOp.Fits] at h1
        exact tdiv_in (by omega) (by omega) (by omega)
      rintro δ rfl
      refine Safe.ok ⟨h.off, fun b => ?_⟩
      have h1 := hop b
      simp only [SeqOp.Fits] at h1
      obtain ⟨hn, h0, hmax, hw⟩ := h.num b
      refine ⟨⟨h1, hn.en, (mul_pow_ediv _ _).symm⟩, h0, hmax, ?_⟩
      intro hpos
      obtain ⟨hnf, p, hp, he, hle, _⟩ := hw hpos
      have hle' : st.steps ≤ p.steps := hle
      have hr := tdiv_rem (d := st.endValue - v * 2 ^ q.fracShift) (s := st.steps) hpos
      refine ⟨hnf, p, hp, he, hle, toward_tdiv hpos, ?_⟩
      show -p.steps < st.endValue - v * 2 ^ q.fracShift -
          (st.endValue - v * 2 ^ q.fracShift).tdiv st.steps * st.steps ∧
        st.endValue - v * 2 ^ q.fracShift -
          (st.endValue - v * 2 ^ q.fracShift).tdiv st.steps * st.steps < p.steps
      omega
    · rename_i hs
      refine Safe.ok ⟨h.off, fun b => ?_⟩
      have h1 := hop b
      simp only [SeqOp.Fits] at h1
      obtain ⟨hn, h0, hmax, hw⟩ := h.num b
      refine ⟨⟨h1, hn.en, (mul_pow_ediv _ _).symm⟩, h0, hmax, ?_⟩
      intro hpos
      exact absurd hpos (by show ¬ 0 < st.steps; omega)

theorem EnvSeq.run_inv {B : Prop} {q : EnvSeq} {so sl : Nat} (hq : q.W so sl) (hN : B → q.N)
    (ops : List SeqOp) : ∀ (st : SeqState), EnvInv B q st → (B → ∀ op ∈ ops, op.Fits q) →
    Safe B (q.run st ops) (fun r => EnvInv B q r.1) := by
  induction ops with
  | nil => intro st h _; exact Safe.ok h
  | cons op ops ih =>
    intro st h hf
    unfold EnvSeq.run
    refine (EnvSeq.exec_inv hq hN st h op (fun b => hf b op (by simp))).bind fun r hr => ?_
    refine (ih r.2 hr (fun b o ho => hf b o (by simp [ho]))).bind fun t ht => ?_
    exact Safe.ok ht

theorem EnvInv.init (B : Prop) (q : EnvSeq) : EnvInv B q {} := by
  refine ⟨by decide, fun _ => ⟨⟨by decide, by decide, ?_⟩, by decide, by decide, ?_⟩⟩
  · show (0 : Int) = 0 / 2 ^ q.fracShift
    rw [Int.zero_ediv]
  · intro h; exact absurd h (by decide)

/-- Largest magnitude of the values. -/
theorem maxAbs_spec (ps : List EnvPoint) (M : Int) (hM : M ≤ 2147483647)
    (h : ∀ p ∈ ps, -M ≤ p.value ∧ p.value ≤ M) :
    ∀ m, 0 ≤ m → m ≤ M → ∃ r, maxAbs ps m = .ok r ∧ m ≤ r ∧ r ≤ M ∧
      ∀ p ∈ ps, -r ≤ p.value ∧ p.value ≤ r := by
  induction ps with
  | nil => intro m h0 hm; exact ⟨m, rfl, by omega, hm, by simp⟩
  | cons p ps ih =>
    intro m h0 hm
    have hp := h p (by simp)
    have ha : ∃ a, (if p.value < 0 then i32 (-p.value) else pure p.value : C Int) = .ok a ∧
        0 ≤ a ∧ a ≤ M ∧ -a ≤ p.value ∧ p.value ≤ a := by
      split
      · exact ⟨-p.value, i32_ok (by omega) (by omega), by omega, by omega, by omega, by omega⟩
      · exact ⟨p.value, rfl, by omega, by omega, by omega, by omega⟩
    obtain ⟨a, ha1, ha2, ha3, ha4, ha5⟩ := ha
    have hc : m ≤ cmax m a ∧ a ≤ cmax m a ∧ cmax m a ≤ M := by
      unfold cmax; split <;> omega
    obtain ⟨r, h1, h2, h3, h4⟩ := ih (fun x hx => h x (by simp [hx])) (cmax m a) (by omega) (by omega)
    refine ⟨r, ?_, by omega, h3, ?_⟩
    · unfold maxAbs
      revert ha1
      dsimp only
      split <;> intro ha1 <;> rw [ha1] <;> exact h1
    · intro x hx
      rcases List.mem_cons.1 hx with rfl | hx
      · omega
      · exact h4 x hx

theorem fracLoop_spec (m : Int) : ∀ fuel s, s ≤ fracLoop m fuel s ∧ fracLoop m fuel s ≤ s + fuel ∧
    (m < 2 ^ (s + fuel) → m < 2 ^ (fracLoop m fuel s)) ∧
    (s < fracLoop m fuel s → (2 : Int) ^ (fracLoop m fuel s - 1) ≤ m) := by
  intro fuel
  induction fuel with
  | zero => intro s; simp [fracLoop]
  | succ n ih =>
    intro s
    unfold fracLoop
    split
    · rename_i hlt
      obtain ⟨h1, h2, h3, h4⟩ := ih (s + 1)
      refine ⟨by omega, by omega, ?_, ?_⟩
      · intro h; exact h3 (by rw [show s + 1 + n = s + (n + 1) by omega]; exact h)
      · intro _
        by_cases hc : s + 1 < fracLoop m n (s + 1)
        · exact h4 hc
        · have : fracLoop m n (s + 1) = s + 1 := by omega
          rw [this]; simpa using hlt
    · rename_i hlt
      exact ⟨by omega, by omega, fun _ => by omega, fun h => by omega⟩

theorem fracShift_spec (ps : List EnvPoint)
    (h : ∀ p ∈ ps, -1073741824 < p.value ∧ p.value < 1073741824) :
    ∃ fs, fracShiftOf ps = .ok fs ∧ fs ≤ 30 ∧
      ∀ p ∈ ps, -1073741824 < p.value * 2 ^ fs ∧ p.value * 2 ^ fs < 1073741824 := by
  obtain ⟨m, h1, h2, h3, h4⟩ := maxAbs_spec ps 1073741823 (by omega)
    (fun p hp => by have := h p hp; omega) 0 (by omega) (by omega)
  obtain ⟨_, f2, f3, _⟩ := fracLoop_spec m 30 0
  have f3 := f3 (by simp; omega)
  refine ⟨30 - fracLoop m 30 0, ?_, by omega, ?_⟩
  · unfold fracShiftOf; rw [h1]; rfl
  · generalize fracLoop m 30 0 = s at *
    intro p hp
    have hv := h4 p hp
    have hpos : (0 : Int) < 2 ^ (30 - s) := two_pow_pos _
    have e : (2 : Int) ^ s * 2 ^ (30 - s) = 1073741824 := by
      rw [← Int.pow_add, show s + (30 - s) = 30 by omega]; rfl
    have a1 : p.value * 2 ^ (30 - s) ≤ m * 2 ^ (30 - s) :=
      Int.mul_le_mul_of_nonneg_right hv.2 (by omega)
    have a2 : -m * 2 ^ (30 - s) ≤ p.value * 2 ^ (30 - s) :=
      Int.mul_le_mul_of_nonneg_right hv.1 (by omega)
    have a3 : m * 2 ^ (30 - s) < 2 ^ s * 2 ^ (30 - s) := Int.mul_lt_mul_of_pos_right f3 hpos
    rw [Int.neg_mul] at a2
    omega

theorem sumSteps_zero (ps : List EnvPoint) (h : ∀ p ∈ ps, p.steps = 0) : sumSteps ps 0 = 0 := by
  induction ps with
  | nil => rfl
  | cons p ps ih =>
    unfold sumSteps
    rw [h p (by simp)]
    have : wrapI32 (0 + 0) = 0 := by decide
    rw [this]
    exact ih fun x hx => h x (by simp [hx])

theorem sumSteps_live {ps : List EnvPoint} (h : sumSteps ps 0 ≠ 0) :
    ∃ (i : Nat) (p : EnvPoint), ps[i]? = some p ∧ p.steps ≠ 0 := by
  by_contra hc
  apply h
  apply sumSteps_zero
  intro p hp
  by_contra h0
  obtain ⟨i, hi⟩ := List.getElem?_of_mem hp
  exact hc ⟨i, p, hi, h0⟩

/-- What creation of an envelope gives for sizes that do not wrap around. -/
theorem EnvSeq.create_eq {ps : List EnvPoint} {so sl : Int} (hl : ps.length < 268435456)
    (hso : InI32 so) (hsl : InI32 sl) :
    EnvSeq.create ps so sl =
      if envCheck ps (sustainBegin ps.length so) (sustainSize ps.length so sl) then do
        let fs ← fracShiftOf ps
        return some ⟨ps, ps.length, sustainBegin ps.length so, sustainSize ps.length so sl, fs⟩
      else return none := by
  have hle := sustain_le ps.length so sl
  have h0 : wrapI32 (8 * (ps.length : Int)) = 8 * ps.length := wrapI32_id (by omega) (by omega)
  have hs : seqAlloc (8 * (ps.length : Int)) = .ok true := by
    unfold seqAlloc; rw [if_pos (by omega)]
  have ht : (8 * (ps.length : Int) / 8).toNat = ps.length := by omega
  unfold EnvSeq.create
  dsimp only
  rw [clamp_so (by omega) hso, clamp_sl (by omega) hsl, h0, hs]
  simp only [ok_bind, if_true, pure_eq_ok, ht, List.take_length]
  rw [wrapI32_id (by omega) (by omega), wrapI32_id (by omega) (by omega),
    wrapI32_id (by omega) (by omega)]

/-- A created envelope has the structure the invariant needs. -/
theorem EnvSeq.create_W {ps : List EnvPoint} {so sl : Int} {q : EnvSeq}
    (hl : ps.length < 268435456) (hso : InI32 so) (hsl : InI32 sl)
    (hst : ∀ p ∈ ps, InU32 p.steps) (h : EnvSeq.create ps so sl = .ok (some q)) :
    q.W (sustainBegin ps.length so) (sustainSize ps.length so sl) ∧ q.points = ps ∧
      fracShiftOf ps = .ok q.fracShift := by
  have hle := sustain_le ps.length so sl
  rw [EnvSeq.create_eq hl hso hsl] at h
  split at h
  · rename_i hc
    obtain ⟨fs, h1, h2⟩ := bind_ok_iff.1 h
    simp only [pure_eq_ok, Except.ok.injEq, Option.some.injEq] at h2
    subst h2
    refine ⟨⟨rfl, hl, rfl, rfl, hle, hst, ?_⟩, rfl, h1⟩
    show sustainBegin ps.length so = ps.length ∨ _
    generalize sustainBegin ps.length so = b at *
    generalize sustainSize ps.length so sl = z at *
    unfold envCheck at hc
    split at hc
    · left; omega
    · right
      simp only [decide_eq_true_eq, ne_eq] at hc
      obtain ⟨i, p, hi, hp⟩ := sumSteps_live hc
      rw [List.getElem?_take] at hi
      split at hi
      · rename_i hiz
        rw [List.getElem?_drop] at hi
        simp at hiz hi
        exact ⟨b + i, p, by omega, by omega, hi, hp⟩
      · simp at hi
  · simp at h

theorem EnvSeq.create_N {ps : List EnvPoint} {q : EnvSeq} (hp : q.points = ps)
    (hf : fracShiftOf ps = .ok q.fracShift)
    (hst : ∀ p ∈ ps, p.steps < 2147483648)
    (hv : ∀ p ∈ ps, -1073741824 < p.value ∧ p.value < 1073741824) : q.N := by
  obtain ⟨fs, h1, h2, h3⟩ := fracShift_spec ps hv
  rw [hf] at h1
  injection h1 with h1
  subst h1
  exact ⟨h2, by rw [hp]; exact hst, by rw [hp]; exact h3⟩

end BK
