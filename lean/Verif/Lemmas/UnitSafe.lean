import Verif.Lemmas.Envelope
import Verif.Lemmas.SampleOps
import Verif.Spec.TrackSafe
/-!
Calls on units that do not fault, and what they keep.
-/
namespace BK

/-- The fields that rendering keeps. -/
def UCore.setup (c : UCore) : Wave × Int × Option SampleData × Int × Int × Bool × Bool × Int :=
  (c.waveform, c.count, c.data, c.length, c.sustainEnd, c.sustainRange, c.sustainJump, c.repeatMode)

theorem UCore.sampleChan_setup {t idx : Int} {st st' : UCore × List Pulse} {i : Nat}
    (h : UCore.sampleChan t idx st i = .ok st') : st'.1.setup = st.1.setup := by
  unfold UCore.sampleChan at h
  obtain ⟨p, -, h⟩ := bind_ok_iff.1 h
  obtain ⟨y, -, h⟩ := bind_ok_iff.1 h
  obtain ⟨z, -, h⟩ := bind_ok_iff.1 h
  obtain ⟨w, -, h⟩ := bind_ok_iff.1 h
  cases h; rfl

theorem UCore.advance_setup {c c' : UCore} (h : c.advance = .ok c') : c'.setup = c.setup := by
  unfold UCore.advance at h
  obtain ⟨p, -, h⟩ := bind_ok_iff.1 h
  obtain ⟨y, -, h⟩ := bind_ok_iff.1 h
  cases h; rfl

theorem UCore.checkRange_setup {c : UCore} {r : Bool × UCore} (h : c.checkRange = .ok r) :
    r.2.setup = c.setup := by
  unfold UCore.checkRange at h
  split at h
  · unfold UCore.resetSample at h
    obtain ⟨w, -, h⟩ := bind_ok_iff.1 h
    split at h
    · cases h; rfl
    · obtain ⟨y, -, h⟩ := bind_ok_iff.1 h
      cases h; rfl
  · cases h; rfl

theorem UCore.checkSustain_setup {c c' : UCore} {b : Bool} (h : c.checkSustain b = .ok c') :
    c'.setup = c.setup := by
  unfold UCore.checkSustain at h
  split at h
  · unfold UCore.sustain at h
    split at h <;> split at h <;> (cases h; rfl)
  · cases h; rfl

theorem UCore.sampleStep_setup {c : UCore} {cb : Bool} {t : Int} {n : Nat}
    {r : Bool × UCore × List Pulse} (h : c.sampleStep cb t n = .ok r) : r.2.1.setup = c.setup := by
  unfold UCore.sampleStep at h
  obtain ⟨x, hx, h⟩ := bind_ok_iff.1 h
  obtain ⟨y, hy, h⟩ := bind_ok_iff.1 h
  obtain ⟨z, hz, h⟩ := bind_ok_iff.1 h
  have h0 : x.1.setup = c.setup :=
    foldlM_inv (P := fun st : UCore × List Pulse => st.1.setup = c.setup)
      (fun st i st' hst hs => (UCore.sampleChan_setup hs).trans hst) _ rfl hx
  have h1 := (UCore.checkRange_setup hz).trans ((UCore.advance_setup hy).trans h0)
  split at h
  · cases h; exact h1
  · obtain ⟨v, hv, h⟩ := bind_ok_iff.1 h
    cases h
    exact (UCore.checkSustain_setup hv).trans h1

theorem UCore.sampleLoop_setup {cb : Bool} {e : Int} {n : Nat} : ∀ (k : Nat) {t : Int} {c : UCore}
    {r : Int × UCore × List Pulse}, UCore.sampleLoop cb e n k t c = .ok r → r.2.1.setup = c.setup
  | 0, t, c, r, h => by cases h; rfl
  | k + 1, t, c, r, h => by
    unfold UCore.sampleLoop at h
    split at h
    · obtain ⟨x, hx, h⟩ := bind_ok_iff.1 h
      have h0 := UCore.sampleStep_setup hx
      split at h
      · cases h; exact h0
      · obtain ⟨y, -, h⟩ := bind_ok_iff.1 h
        obtain ⟨z, hz, h⟩ := bind_ok_iff.1 h
        cases h
        exact (UCore.sampleLoop_setup k hz).trans h0
    · cases h; rfl

theorem UCore.render_setup {c : UCore} {t0 e : Int} {n : Nat} {r : Int × UCore × List Pulse}
    (h : c.render t0 e n = .ok r) : r.2.1.setup = c.setup := by
  unfold UCore.render at h
  obtain ⟨x, hx, h⟩ := bind_ok_iff.1 h
  cases h
  dsimp only
  unfold UCore.runAny at hx
  split at hx
  · cases hx; rfl
  · split at hx
    · cases hx; rfl
    · unfold UCore.runSample at hx
      split at hx
      · cases hx; rfl
      · obtain ⟨d, -, hx⟩ := bind_ok_iff.1 hx
        obtain ⟨d', -, hx⟩ := bind_ok_iff.1 hx
        split at hx
        · cases hx; rfl
        · obtain ⟨y, hy, hx⟩ := bind_ok_iff.1 hx
          cases hx
          have := UCore.sampleLoop_setup _ hy
          exact this
    · unfold UCore.runWaveform at hx
      split at hx
      · cases hx; rfl
      · refine foldlM_inv (P := fun st : Int × UCore × List Pulse => st.2.1.setup = c.setup) ?_ _ rfl hx
        intro st i st' hst hs
        unfold UCore.waveChan at hs
        split at hs
        · cases hs; exact hst
        · obtain ⟨x, -, hs⟩ := bind_ok_iff.1 hs
          cases hs
          exact hst

/-- A unit on which calls do not fault.  `N` is the number of channels of all contexts; `Z` holds
while the unit is not set up yet. -/
structure UCore.Fine (N : Nat) (Z : Prop) (c : UCore) : Prop where
  inv : c.Inv
  spre : c.SPre N
  count : Z ∨ (1 ≤ c.count ∧ c.count ≤ 64)
  short : c.waveform = .sample → c.length ≤ 1073741824
  data : c.waveform = .sample → ∀ d, c.data = some d → d.numFrames ≤ 1073741824
  sus : c.waveform = .sample → c.sustainRange = true →
    c.sustainEnd ≤ c.length ∧ (c.sustainJump = true → c.sustainEnd < c.length)
  turn : c.waveform = .sample → c.repeatMode = 2 → 257 ≤ c.length
  stray : c.sustainRange = true → c.sustainJump = true → c.waveform = .sample

theorem UCore.Fine.sinv {N : Nat} {Z : Prop} {c : UCore} (h : c.Fine N Z) : c.SInv N := by
  refine ⟨h.spre, fun hw => ⟨h.short hw, h.sus hw, fun hr => ?_⟩⟩
  have h1 := h.turn hw hr
  have h2 := h.spre.speed
  unfold PeriodOk at h2
  omega

theorem UCore.Fine.of_setup {N : Nat} {Z : Prop} {c c' : UCore} (h : c.Fine N Z) (hi : c'.Inv)
    (hs : c'.SPre N) (e : c'.setup = c.setup) : c'.Fine N Z := by
  unfold UCore.setup at e
  obtain ⟨e1, e⟩ := Prod.mk.inj e
  obtain ⟨e2, e⟩ := Prod.mk.inj e
  obtain ⟨e3, e⟩ := Prod.mk.inj e
  obtain ⟨e4, e⟩ := Prod.mk.inj e
  obtain ⟨e5, e⟩ := Prod.mk.inj e
  obtain ⟨e6, e⟩ := Prod.mk.inj e
  obtain ⟨e7, e8⟩ := Prod.mk.inj e
  refine ⟨hi, hs, ?_, ?_, ?_, ?_, ?_, ?_⟩
  · rw [e2]; exact h.count
  · rw [e1, e4]; exact h.short
  · rw [e1, e3]; exact h.data
  · rw [e1, e4, e5, e6, e7]; exact h.sus
  · rw [e1, e8, e4]; exact h.turn
  · rw [e1, e6, e7]; exact h.stray

/-- A total call. -/
theorem Safe.of_ok {α} {B : Prop} {r : C α} {P : α → Prop} (h : ∃ a, r = .ok a) (hp : ∀ a, r = .ok a → P a) :
    Safe B r P := by
  obtain ⟨a, rfl⟩ := h
  exact hp a rfl

theorem cabs_total {x : Int} (h : InI32 x) (h' : x ≠ -2147483648) : ∃ y, cabs x = .ok y := by
  unfold cabs
  unfold InI32 at h
  split
  · exact ⟨-x, i32_ok (by omega) (by omega)⟩
  · exact ⟨x, rfl⟩

theorem UCore.setAttr_total {N : Nat} {Z : Prop} {c : UCore} (h : c.Fine N Z) (a : UAttr) {v : Int}
    (hv : InI32 v) (hv' : v ≠ -2147483648) : ∃ r, c.setAttr a v = .ok r := by
  obtain ⟨y, hy⟩ := cabs_total hv hv'
  unfold UCore.setAttr
  cases a <;> dsimp only
  case waveform => split <;> exact ⟨_, rfl⟩
  case dutyCycle => split <;> exact ⟨_, rfl⟩
  case period => rw [hy]; exact ⟨_, rfl⟩
  case samplePeriod => rw [hy]; exact ⟨_, rfl⟩
  case flagRelease =>
    split
    · rename_i hsr
      split
      · rename_i hj
        have hw := h.stray hsr hj.2.1
        have := (h.spre.sample hw).sustain hsr
        split
        · exact ⟨_, rfl⟩
        · have e : wrapI32 c.sustainOffset = c.sustainOffset := wrapI32_of_in ⟨by omega, by omega⟩
          rw [e, i32_ok (by omega) (by omega)]
          exact ⟨_, rfl⟩
      · exact ⟨_, rfl⟩
    · exact ⟨_, rfl⟩
  all_goals exact ⟨_, rfl⟩

theorem UCore.setAttr_fine {N : Nat} {Z : Prop} {c : UCore} (h : c.Fine N Z) {a : UAttr} {v : Int}
    (hv : InI32 v) (ha : c.AttrOk a v) {r : Ret × UCore} (e : c.setAttr a v = .ok r) : r.2.Fine N Z := by
  have hi : r.2.Inv := by
    by_cases hq : a = .flagRelease ∧ c.sustainRange = false
    · obtain ⟨rfl, hq⟩ := hq
      unfold UCore.setAttr at e
      dsimp only at e
      rw [hq, if_neg (by simp)] at e
      cases e; exact h.inv
    · refine UCore.setAttr_inv h.inv hv (fun e => ?_) e
      by_cases h1 : c.sustainJump = true
      · by_cases h2 : c.sustainRange = true
        · exact .inr (.inl (h.stray h2 h1))
        · exact absurd ⟨e, by simpa using h2⟩ hq
      · exact .inr (.inr (by simpa using h1))
  have hs := UCore.setAttr_spre h.sinv hv e
  cases a
  case waveform =>
    unfold UCore.setAttr at e
    dsimp only at e
    split at e
    · rename_i w n hw
      cases e
      have hwn := waveOfAttr_some hw
      have hne : w ≠ .sample := by rintro rfl; simp at hwn
      have hn : 1 ≤ n ∧ n ≤ 64 := by
        rcases hwn with h | h | h | h | h | h <;> omega
      have hx : (if c.waveform ≠ w then ({ c with count := n, phase := 0, waveform := w } : UCore)
          else { c with count := n }).waveform = w := by
        split
        · rfl
        · rename_i hx; exact not_not.1 hx
      have hcnt : (if c.waveform ≠ w then ({ c with count := n, phase := 0, waveform := w } : UCore)
          else { c with count := n }).count = n := by split <;> rfl
      have hsr : (if c.waveform ≠ w then ({ c with count := n, phase := 0, waveform := w } : UCore)
          else { c with count := n }).sustainRange = c.sustainRange := by split <;> rfl
      have hsj : (if c.waveform ≠ w then ({ c with count := n, phase := 0, waveform := w } : UCore)
          else { c with count := n }).sustainJump = c.sustainJump := by split <;> rfl
      have hno : ∀ {P : Prop}, (if c.waveform ≠ w then ({ c with count := n, phase := 0, waveform := w } : UCore)
          else { c with count := n }).waveform = .sample → P := fun e => absurd (hx.symm.trans e) hne
      refine ⟨hi, hs, .inr ?_, hno, hno, hno, hno, fun a b => ?_⟩
      · exact ⟨le_of_le_of_eq hn.1 hcnt.symm, le_of_eq_of_le hcnt hn.2⟩
      · exact (ha (hsr.symm.trans a) (hsj.symm.trans b)).elim
    · cases e; exact h
  case dutyCycle =>
    refine h.of_setup hi hs ?_
    unfold UCore.setAttr at e
    dsimp only at e
    split at e <;> (cases e; rfl)
  case flagRelease =>
    refine h.of_setup hi hs ?_
    unfold UCore.setAttr at e
    dsimp only at e
    split at e
    · split at e
      · split at e
        · cases e; rfl
        · obtain ⟨x, -, e⟩ := bind_ok_iff.1 e; cases e; rfl
      · cases e; rfl
    · cases e; rfl
  case period =>
    refine h.of_setup hi hs ?_
    obtain ⟨x, -, e⟩ := bind_ok_iff.1 e; cases e; rfl
  case samplePeriod =>
    refine h.of_setup hi hs ?_
    obtain ⟨x, -, e⟩ := bind_ok_iff.1 e; cases e; rfl
  case sampleRepeat =>
    cases e
    refine ⟨hi, hs, h.count, h.short, h.data, h.sus, fun hw hr => ?_, h.stray⟩
    refine ha ?_ hw
    dsimp only at hr
    split at hr
    · exact hr
    · omega
  case immedRelease =>
    cases e
    refine ⟨hi, hs, h.count, h.short, h.data, fun hw hr => ⟨(h.sus hw hr).1, fun hj => ?_⟩, h.turn,
      fun hr hj => ?_⟩
    · have hj := of_decide_eq_true hj
      rcases ha with h0 | h0 | h0
      · exact absurd h0 hj
      · exact absurd (h0.symm.trans hr) (by simp)
      · exact h0.2
    · have hj := of_decide_eq_true hj
      rcases ha with h0 | h0 | h0
      · exact absurd h0 hj
      · exact absurd (h0.symm.trans hr) (by simp)
      · exact h0.1
  all_goals exact h.of_setup hi hs (by cases e; rfl)

theorem UCore.setData_total {N : Nat} {c : UCore} (h : c.SPre N) (ctx : Option Int) (t : DataAttr)
    (d : Option SampleData) : ∃ r, c.setData ctx t d = .ok r := by
  have key : ∃ x, c.trySetData ctx t d = .ok x := by
    unfold UCore.trySetData
    cases ctx with
    | none => exact ⟨_, rfl⟩
    | some n =>
      cases t with
      | waveform => exact ⟨_, rfl⟩
      | sample =>
        dsimp only
        unfold UCore.trySetSample
        cases d with
        | none => dsimp only; split <;> exact ⟨_, rfl⟩
        | some d =>
          dsimp only
          split
          · exact ⟨_, rfl⟩
          · split
            · exact ⟨_, rfl⟩
            · obtain ⟨q, hq, -⟩ := cabs_period h.speed
              rw [hq]; exact ⟨_, rfl⟩
  obtain ⟨x, hx⟩ := key
  unfold UCore.setData
  rw [hx, ok_bind]
  split
  · exact ⟨_, rfl⟩
  · split <;> exact ⟨_, rfl⟩

theorem UCore.setData_off_spre {N : Nat} {c : UCore} (h : c.SPre N) {t : DataAttr}
    {d : Option SampleData} {r : Ret × UCore} (e : c.setData none t d = .ok r) :
    r.2.SPre N ∧ r.2.waveform ≠ .sample := by
  unfold UCore.setData UCore.trySetData at e
  rw [ok_bind, if_neg (by simp)] at e
  dsimp only at e
  split at e
  · cases e; exact ⟨UCore.SPre.of_not h.speed h.frac (by simp), by simp⟩
  · rename_i hn
    cases e
    exact ⟨h, fun hw => hn (.inr hw)⟩

/-- A refused call. -/
theorem UCore.Fine.refuse {N : Nat} {Z : Prop} {c : UCore} (h : c.Fine N Z)
    (hf : c.sustainRange = true → c.sustainJump = true → False) :
    ({ c with waveform := .none } : UCore).Fine N Z :=
  ⟨⟨h.inv.period, h.inv.volume, h.inv.last, h.inv.duty, h.inv.wrap, h.inv.frames, h.inv.data, trivial⟩,
    UCore.SPre.of_not h.spre.speed h.spre.frac (by simp), h.count, (fun e => nomatch e), (fun e => nomatch e),
    (fun e => nomatch e), (fun e => nomatch e), fun a b => (hf a b).elim⟩

theorem UCore.setData_fine {N : Nat} {Z : Prop} {c : UCore} (h : c.Fine N Z) {ctx : Option Int}
    (hx : ∀ n, ctx = some n → n = N) {t : DataAttr} {d : Option SampleData} (hd : c.DataOk t d)
    {r : Ret × UCore} (e : c.setData ctx t d = .ok r) : r.2.Fine N Z := by
  have hi := UCore.setData_inv h.inv (fun x hx => (hd.1 x hx).1) e
  have hs : r.2.SPre N := by
    cases ctx with
    | none => exact (UCore.setData_off_spre h.spre e).1
    | some n =>
      have := hx n rfl
      subst this
      exact UCore.setData_spre h.spre (fun x hx => (hd.1 x hx).1) e
  have refuse : ∀ ret : Ret, ret ≠ .ok → c.trySetData ctx t d = .ok (ret, c) → r.2.Fine N Z := by
    intro ret hr e1
    unfold UCore.setData at e
    rw [e1, ok_bind, if_neg hr] at e
    dsimp only at e
    split at e
    · cases e; exact h.refuse hd.2
    · cases e; exact h
  cases ctx with
  | none => exact refuse _ (by decide) rfl
  | some n =>
    cases t with
    | waveform =>
      have e1 : c.trySetData (some n) .waveform d = .ok (c.trySetWave d) := rfl
      cases d with
      | some d =>
        by_cases h2 : d.numFrames ≥ 2
        · have e2 : c.trySetWave (some d) = (.ok, { c with
              waveform := .custom, count := cmin d.numFrames 64, phase := 0, offset := 0,
              stop := d.numFrames, frames := d.frames, repeatCount := 0 }) := by
            unfold UCore.trySetWave; dsimp only; rw [if_pos h2]
          unfold UCore.setData at e
          rw [e1, e2, ok_bind, if_pos rfl] at e
          cases e
          refine ⟨hi, hs, .inr ?_, (fun e => nomatch e), (fun e => nomatch e), (fun e => nomatch e),
            (fun e => nomatch e), fun a b => (hd.2 a b).elim⟩
          show 1 ≤ cmin d.numFrames 64 ∧ cmin d.numFrames 64 ≤ 64
          unfold cmin; split <;> omega
        · exact refuse .invalidNumFrames (by decide) (by
            rw [e1]; unfold UCore.trySetWave; dsimp only; rw [if_neg h2])
      | none =>
        unfold UCore.setData at e
        rw [e1, ok_bind] at e
        by_cases h2 : c.waveform = .custom
        · have e2 : c.trySetWave none = (.failed, { c with waveform := .none, offset := 0, stop := 0, frames := [] }) := by
            unfold UCore.trySetWave; dsimp only; rw [if_pos h2]
          rw [e2, if_neg (by simp)] at e
          dsimp only at e
          rw [if_neg (by simp)] at e
          cases e
          exact ⟨hi, hs, h.count, (fun e => nomatch e), (fun e => nomatch e), (fun e => nomatch e),
            (fun e => nomatch e), fun a b => (hd.2 a b).elim⟩
        · have e2 : c.trySetWave none = (.ok, c) := by
            unfold UCore.trySetWave; dsimp only; rw [if_neg h2]
          rw [e2, if_pos rfl] at e
          cases e
          exact ⟨hi, hs, h.count, h.short, (fun _ _ e => nomatch e), h.sus, h.turn, h.stray⟩
    | sample =>
      have e1 : c.trySetData (some n) .sample d = c.trySetSample d n := rfl
      cases d with
      | some d =>
        by_cases h1 : d.numChannels ≠ 1 ∧ d.numChannels ≠ n
        · exact refuse .invalidNumChannels (by decide) (by
            rw [e1]; unfold UCore.trySetSample; dsimp only; rw [if_pos h1])
        · by_cases h2 : d.numFrames < 2
          · exact refuse .invalidNumFrames (by decide) (by
              rw [e1]; unfold UCore.trySetSample; dsimp only; rw [if_neg h1, if_pos h2])
          · obtain ⟨q, hq, -⟩ := cabs_period h.spre.speed
            unfold UCore.setData at e
            rw [e1] at e
            unfold UCore.trySetSample at e
            dsimp only at e
            rw [if_neg h1, if_neg h2, hq] at e
            simp only [ok_bind, pure_eq_ok, if_true] at e
            cases e
            refine ⟨hi, hs, .inr (by constructor <;> (dsimp only; omega)), fun _ => (hd.1 d rfl).2 rfl, fun _ x hx => ?_,
              (fun _ e => nomatch e), (fun _ e => nomatch e), (fun e => nomatch e)⟩
            cases hx
            exact (hd.1 d rfl).2 rfl
      | none =>
        unfold UCore.setData at e
        rw [e1] at e
        unfold UCore.trySetSample at e
        dsimp only at e
        by_cases hw : c.waveform = .sample
        · rw [if_pos hw, ok_bind, if_pos rfl] at e
          cases e
          exact ⟨hi, hs, h.count, (fun e => nomatch e), (fun e => nomatch e), (fun e => nomatch e),
            (fun e => nomatch e), (fun e => nomatch e)⟩
        · rw [if_neg hw, ok_bind, if_pos rfl] at e
          cases e
          exact ⟨hi, hs, h.count, (fun e => absurd e hw), (fun e => absurd e hw), (fun e => absurd e hw),
            (fun e => absurd e hw), h.stray⟩

theorem UCore.setData_none_count {c : UCore} {ctx : Option Int} {t : DataAttr} {r : Ret × UCore}
    (e : c.setData ctx t none = .ok r) : r.2.count = c.count := by
  unfold UCore.setData at e
  obtain ⟨x, hx, e⟩ := bind_ok_iff.1 e
  have h1 : x.2.count = c.count := by
    unfold UCore.trySetData at hx
    split at hx
    · cases hx; rfl
    · split at hx
      · cases hx; unfold UCore.trySetWave; dsimp only; split <;> rfl
      · unfold UCore.trySetSample at hx
        dsimp only at hx
        split at hx <;> (cases hx; rfl)
  split at e
  · cases e; exact h1
  · split at e <;> (cases e; exact h1)

theorem UCore.clear_total {N : Nat} {c : UCore} (h : c.SPre N) {ctx : Option Int}
    (hx : ∀ n, ctx = some n → n = N) : ∃ c', c.clear ctx = .ok c' ∧ c'.waveform ≠ .sample ∧
      c'.count = c.count ∧ c'.sustainRange = false ∧ c'.sustainJump = false ∧ c'.samplePeriod = 1048576 ∧
      c'.timeFrac = 0 := by
  obtain ⟨r, hr⟩ := UCore.setData_total h ctx .waveform none
  have h1 : r.2.SPre N := by
    cases ctx with
    | none => exact (UCore.setData_off_spre h hr).1
    | some n =>
      have := hx n rfl
      subst this
      exact UCore.setData_spre h (by simp) hr
  obtain ⟨s, hs⟩ := UCore.setData_total h1 ctx .sample none
  have h2 : s.2.waveform ≠ .sample := by
    cases ctx with
    | none => exact (UCore.setData_off_spre h1 hs).2
    | some n =>
      have := hx n rfl
      subst this
      exact UCore.setData_none_wave hs
  unfold UCore.clear
  rw [hr, ok_bind, hs, ok_bind]
  exact ⟨_, rfl, h2, (UCore.setData_none_count hs).trans (UCore.setData_none_count hr), rfl, rfl, rfl, rfl⟩

theorem UCore.clear_fine {N : Nat} {Z : Prop} {c : UCore} (h : c.Fine N Z) {ctx : Option Int}
    (hx : ∀ n, ctx = some n → n = N) : Safe True (c.clear ctx) (fun c' => c'.Fine N Z ∧
      c'.sustainRange = false ∧ c'.waveform ≠ .sample) := by
  obtain ⟨c', e, hw, hc, hr, hj, hp, hf⟩ := UCore.clear_total h.spre hx
  rw [e]
  refine ⟨⟨UCore.clear_inv h.inv e, UCore.SPre.of_not ?_ ?_ hw, ?_, fun e => absurd e hw,
    fun e => absurd e hw, fun e => absurd e hw, fun e => absurd e hw, fun a => ?_⟩, hr, hw⟩
  · rw [hp]; unfold PeriodOk; omega
  · rw [hf]; omega
  · rw [hc]; exact h.count
  · rw [hr] at a; cases a

theorem BUnit.reset_fine {N : Nat} {Z : Prop} {u : BUnit} (h : u.toUCore.Fine N Z) {ctx : Option Int}
    (hx : ∀ n, ctx = some n → n = N) : Safe True (u.reset ctx) (fun u' => u'.toUCore.Fine N Z ∧
      u'.sustainRange = false) := by
  obtain ⟨c', e, hc, hr, hw⟩ := (UCore.clear_fine h hx).get trivial
  have e2 : u.reset ctx = .ok { c' with waveform := .none, phase := 0
                                        lastPulse := fun i => if i < 8 then 0 else c'.lastPulse i
                                        time := 0 } := by unfold BUnit.reset; rw [e]; rfl
  have hi := BUnit.reset_inv h.inv e2
  rw [e2]
  exact ⟨⟨hi, UCore.SPre.of_not hc.spre.speed hc.spre.frac (by simp), hc.count, (fun e => nomatch e),
    (fun e => nomatch e), (fun e => nomatch e), (fun e => nomatch e), fun a => by
      rw [show c'.sustainRange = false from hr] at a; cases a⟩, hr⟩

theorem UCore.init_fine (N : Nat) (v : Int) : Safe True (UCore.init v) (fun c => c.Fine N True ∧
    c.sustainRange = false) := by
  have h0 : ∃ c, UCore.init v = .ok c := by
    unfold UCore.init
    have : ∀ c : UCore, ∃ r, c.setAttr .waveform v = .ok r := by
      intro c; unfold UCore.setAttr; dsimp only; split <;> exact ⟨_, rfl⟩
    dsimp only
    rw [show UCore.setAttr {} .dutyCycle 2 = .ok (.ok, { dutyCycle := 2 }) from rfl, ok_bind]
    obtain ⟨r, hr⟩ := this { dutyCycle := 2 }
    dsimp only
    rw [hr, ok_bind]
    exact ⟨_, rfl⟩
  obtain ⟨c, e⟩ := h0
  have hi := UCore.init_inv e
  have hs := UCore.init_sinv (n := N) e
  have hr : c.sustainRange = false ∧ c.waveform ≠ .sample := by
    unfold UCore.init at e
    dsimp only at e
    rw [show UCore.setAttr {} .dutyCycle 2 = .ok (.ok, { dutyCycle := 2 }) from rfl, ok_bind] at e
    obtain ⟨r, hr, e⟩ := bind_ok_iff.1 e
    cases e
    unfold UCore.setAttr at hr
    dsimp only at hr ⊢
    split at hr
    · rename_i w n hw
      have hne : w ≠ .sample := by
        rintro rfl
        have := waveOfAttr_some hw
        simp at this
      cases hr
      dsimp only
      split
      · exact ⟨rfl, hne⟩
      · rename_i hx
        exact ⟨rfl, by dsimp only; simp⟩
    · cases hr; exact ⟨rfl, by simp⟩
  rw [e]
  exact ⟨⟨hi, hs.1, .inl trivial, (fun e => absurd e hr.2), (fun e => absurd e hr.2), (fun e => absurd e hr.2),
    (fun e => absurd e hr.2), fun a => by rw [hr.1] at a; cases a⟩, hr.1⟩

theorem rangeArg_total {len x : Int} (h0 : 0 ≤ len) (h1 : len ≤ 1073741824) (hx : InI32 x) :
    ∃ y, rangeArg len x = .ok y := by
  unfold rangeArg
  unfold InI32 at hx
  split
  · rw [i32_ok (by omega) (by omega), ok_bind, i32_ok (by omega) (by omega)]
    exact ⟨_, rfl⟩
  · exact ⟨_, rfl⟩

theorem UCore.updateSustainRange_total {c : UCore} (h : ∀ d, c.data = some d → 0 ≤ d.numFrames ∧ d.numFrames ≤ 1073741824)
    {a b : Int} (ha : InI32 a) (hb : InI32 b) : ∃ c', c.updateSustainRange a b = .ok c' := by
  unfold UCore.updateSustainRange
  split
  · exact ⟨_, rfl⟩
  · rename_i d hd
    obtain ⟨x, hx⟩ := rangeArg_total (h d hd).1 (h d hd).2 ha
    obtain ⟨y, hy⟩ := rangeArg_total (h d hd).1 (h d hd).2 hb
    rw [hx, ok_bind, hy, ok_bind]
    exact ⟨_, rfl⟩

theorem UCore.Fine.frames {N : Nat} {Z : Prop} {c : UCore} (h : c.Fine N Z) (hw : c.waveform = .sample) :
    ∀ d, c.data = some d → 0 ≤ d.numFrames ∧ d.numFrames ≤ 1073741824 := fun d hd =>
  ⟨(h.inv.data d hd).count.1, h.data hw d hd⟩

theorem UCore.setSustainRange_total {N : Nat} {Z : Prop} {c : UCore} (h : c.Fine N Z)
    {v : Option (Int × Int)} (hv : PairOk v) : ∃ r, c.setSustainRange v = .ok r := by
  unfold UCore.setSustainRange
  split
  · exact ⟨_, rfl⟩
  · rename_i hw
    have hw := not_not.1 hw
    have z : InI32 0 := by decide
    cases v with
    | none =>
      dsimp only
      obtain ⟨x, hx⟩ := UCore.updateSustainRange_total (h.frames hw) z z
      rw [hx]; exact ⟨_, rfl⟩
    | some p =>
      dsimp only
      obtain ⟨h1, h2⟩ := hv p rfl
      split
      · obtain ⟨x, hx⟩ := UCore.updateSustainRange_total (h.frames hw) z z
        rw [hx]; exact ⟨_, rfl⟩
      · obtain ⟨x, hx⟩ := UCore.updateSustainRange_total (h.frames hw) h1 h2
        rw [hx]; exact ⟨_, rfl⟩

theorem UCore.updateSustainRange_keeps {c c' : UCore} {a b : Int} (h : c.updateSustainRange a b = .ok c') :
    c'.waveform = c.waveform ∧ c'.count = c.count ∧ c'.data = c.data ∧ c'.length = c.length ∧
    c'.sustainJump = c.sustainJump ∧ c'.repeatMode = c.repeatMode := by
  unfold UCore.updateSustainRange at h
  split at h
  · cases h; exact ⟨rfl, rfl, rfl, rfl, rfl, rfl⟩
  · obtain ⟨x1, -, h⟩ := bind_ok_iff.1 h
    obtain ⟨x2, -, h⟩ := bind_ok_iff.1 h
    cases h; exact ⟨rfl, rfl, rfl, rfl, rfl, rfl⟩

theorem UCore.updateSustainRange_off {c c' : UCore} (h0 : ∀ d, c.data = some d → 0 ≤ d.numFrames)
    (h : c.updateSustainRange 0 0 = .ok c') : c' = c ∧ c.data = none ∨ c'.sustainRange = false := by
  unfold UCore.updateSustainRange at h
  split at h
  · rename_i hd; cases h; exact .inl ⟨rfl, hd⟩
  · rename_i d hd
    have e : rangeArg d.numFrames 0 = .ok 0 := by
      unfold rangeArg
      rw [if_neg (by omega)]
      have := h0 d hd
      show Except.ok _ = _
      congr 1
      unfold cclamp
      split
      · rfl
      · split <;> omega
    rw [e] at h
    simp only [ok_bind, pure_eq_ok] at h
    cases h
    right; rfl

theorem UCore.setSustainRange_fine {N : Nat} {Z : Prop} {c : UCore} (h : c.Fine N Z)
    {v : Option (Int × Int)} {r : Ret × UCore} (e : c.setSustainRange v = .ok r)
    (hr : r.2.waveform = .sample → r.2.sustainRange = true → r.2.sustainEnd ≤ r.2.length ∧
      (r.2.sustainJump = true → r.2.sustainEnd < r.2.length)) : r.2.Fine N Z := by
  have hi := UCore.setSustainRange_inv h.inv e
  have hs := UCore.setSustainRange_spre h.inv h.spre e
  unfold UCore.setSustainRange at e
  split at e
  · cases e; exact h
  · rename_i hw
    have hw := not_not.1 hw
    obtain ⟨x, hx, e⟩ := bind_ok_iff.1 e
    cases e
    dsimp only at hr hi hs
    obtain ⟨e1, e2, e3, e4, e5, e6⟩ := UCore.updateSustainRange_keeps hx
    refine ⟨hi, hs, ?_, ?_, ?_, hr, ?_, ?_⟩ <;> dsimp only
    · rw [e2]; exact h.count
    · rw [e1, e4]; exact h.short
    · rw [e1, e3]; exact h.data
    · rw [e1, e6, e4]; exact h.turn
    · intro _ _; exact e1.trans hw

theorem UCore.updateSampleRange_total {N : Nat} {Z : Prop} {c : UCore} (h : c.Fine N Z) (hw : c.waveform = .sample)
    {a b : Int} (ha : InI32 a) (hb : InI32 b) : ∃ c', c.updateSampleRange a b = .ok c' ∧
      c'.waveform = c.waveform ∧ c'.count = c.count ∧ c'.data = c.data ∧ c'.length ≤ 1073741824 ∧
      c'.sustainRange = c.sustainRange ∧ c'.sustainJump = c.sustainJump ∧ c'.repeatMode = c.repeatMode ∧
      (c.data = none → c' = c) := by
  unfold UCore.updateSampleRange
  split
  · exact ⟨c, rfl, rfl, rfl, rfl, h.short hw, rfl, rfl, rfl, fun _ => rfl⟩
  · rename_i d hd
    have hf := h.frames hw d hd
    obtain ⟨x, hx⟩ := rangeArg_total hf.1 hf.2 ha
    obtain ⟨y, hy⟩ := rangeArg_total hf.1 hf.2 hb
    have r1 := rangeArg_ok hf.1 hx
    have r2 := rangeArg_ok hf.1 hy
    obtain ⟨l, hl⟩ := cabs_total (x := x - y) ⟨by omega, by omega⟩ (by omega)
    have hl2 := cabs_ok (x := x - y) ⟨by omega, by omega⟩ hl
    have hsp := (h.spre.sample hw).span
    obtain ⟨q, hq, -⟩ := cabs_period h.spre.speed
    have e1 : wrapI32 (cmin c.offset c.stop) = cmin c.offset c.stop := by
      refine wrapI32_of_in ?_
      unfold cmin InI32; split <;> omega
    rw [hx, ok_bind, hy, ok_bind, i32_ok (by omega) (by omega), ok_bind, hl, ok_bind, e1,
      i32_ok (by unfold cmin; split <;> split <;> omega) (by unfold cmin; split <;> split <;> omega), ok_bind,
      hq, ok_bind]
    refine ⟨_, rfl, rfl, rfl, rfl, ?_, rfl, rfl, rfl, fun e => by rw [hd] at e; cases e⟩
    show l ≤ _
    omega

theorem UCore.setRange_total {N : Nat} {Z : Prop} {c : UCore} (h : c.Fine N Z) {v : Option (Int × Int)}
    (hv : PairOk v) : ∃ r, c.setRange v = .ok r ∧
      ((r.2.waveform = .sample → r.2.repeatMode = 2 → 257 ≤ r.2.length) → r.2.Fine N Z) := by
  by_cases hw : c.waveform = .sample
  · have hv' : InI32 (v.getD (0, -1)).1 ∧ InI32 (v.getD (0, -1)).2 := by
      cases v with
      | none => exact ⟨by decide, by decide⟩
      | some p => exact hv p rfl
    obtain ⟨x, hx, e1, e2, e3, e4, e5, e6, e7, e8⟩ := UCore.updateSampleRange_total h hw hv'.1 hv'.2
    obtain ⟨y, hy⟩ := UCore.updateSustainRange_total (c := x) (by rw [e3]; exact h.frames hw)
      (a := 0) (b := 0) (by decide) (by decide)
    have e : c.setRange v = .ok (.ok, y) := by
      unfold UCore.setRange
      rw [if_neg (by simp [hw])]
      dsimp only
      rw [hx, ok_bind, hy]
      rfl
    refine ⟨_, e, fun ht => ?_⟩
    obtain ⟨f1, f2, f3, f4, f5, f6⟩ := UCore.updateSustainRange_keeps hy
    have hoff := UCore.updateSustainRange_off (by rw [e3]; exact fun d hd => (h.frames hw d hd).1) hy
    refine ⟨UCore.setRange_inv h.inv e, UCore.setRange_spre h.inv h.spre e, ?_, ?_, ?_, ?_, ht, ?_⟩ <;> dsimp only
    · rw [f2, e2]; exact h.count
    · rw [f4]; exact fun _ => e4
    · rw [f1, f3, e1, e3]; exact h.data
    · intro hwy hsr
      rcases hoff with ⟨h1, h2⟩ | h1
      · have := e8 (e3.symm.trans h2)
        subst h1 this
        exact h.sus hw hsr
      · rw [h1] at hsr; cases hsr
    · intro _ _; rw [f1, e1]; exact hw
  · refine ⟨(.invalidState, c), ?_, fun _ => h⟩
    unfold UCore.setRange
    rw [if_pos hw]

theorem UCore.render_fine {N : Nat} {Z : Prop} {c : UCore} (h : c.Fine N Z) (t0 : Int) {e : Int}
    (h0 : 0 ≤ e) (he : e ≤ 2145386496) : Safe True (c.render t0 e N) (fun r => r.2.1.Fine N Z) := by
  have key : ∀ r, c.render t0 e N = .ok r → r.2.1.SPre N → r.2.1.Fine N Z := fun r hr hs =>
    h.of_setup (UCore.render_inv h.inv h0 (by omega) hr) hs (UCore.render_setup hr)
  by_cases hw : c.waveform = .sample
  · obtain ⟨t, c', ps, e1, e2⟩ := UCore.render_sample_ok h.inv h.sinv hw t0 he
    refine Safe.of_ok ⟨_, e1⟩ fun r hr => key r hr ?_
    rw [e1] at hr; cases hr; exact e2.1
  · by_cases hn : c.waveform = .none
    · have : c.runAny t0 e N = .ok (t0, c, []) := by
        unfold UCore.runAny
        rw [hn]
        split <;> rfl
      unfold UCore.render
      rw [this]
      exact h
    · obtain ⟨t, c', ps, e1, e2⟩ := UCore.render_wave_ok h.inv ⟨hn, hw⟩ t0 h0 (by omega) N
      refine Safe.of_ok ⟨_, e1⟩ fun r hr => key r hr ?_
      unfold UCore.render UCore.runAny at hr
      obtain ⟨y, hy, hx⟩ := bind_ok_iff.1 hr
      cases hx
      dsimp only
      split at hy
      · cases hy; exact h.spre
      · split at hy
        · contradiction
        · contradiction
        · obtain ⟨h1, h2, h3⟩ := UCore.runWaveform_keeps hy
          exact UCore.SPre.of_not (h1 ▸ h.spre.speed) (h2 ▸ h.spre.frac) (h3 ▸ hw)

theorem UCore.callback_fine {N : Nat} {Z : Prop} {c : UCore} (h : c.Fine N Z) (b : Bool) :
    ({ c with callback := b } : UCore).Fine N Z :=
  h.of_setup ⟨h.inv.period, h.inv.volume, h.inv.last, h.inv.duty, h.inv.wrap, h.inv.frames, h.inv.data, h.inv.phase⟩
    ⟨h.spre.speed, h.spre.frac, fun hw => by
      have hs := h.spre.sample hw
      exact ⟨hs.chans, hs.span, hs.len, hs.frames, hs.phase, hs.sustain, hs.data⟩⟩ rfl

/-- Setting an attribute that does not change the number of phases. -/
theorem UCore.setAttr_safe {N : Nat} {Z : Prop} {c : UCore} (h : c.Fine N Z) {a : UAttr} {v : Int}
    (hv : InI32 v) (hv' : v ≠ -2147483648) (ha : c.AttrOk a v) :
    Safe True (c.setAttr a v) (fun r => r.2.Fine N Z) :=
  Safe.of_ok (UCore.setAttr_total h a hv hv') fun _ e => UCore.setAttr_fine h hv ha e

end BK
