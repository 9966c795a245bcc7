import Verif.Lemmas.Unit
/-!
Calls on units: what they keep.
-/
namespace BK

theorem UCore.setAttr_last {c : UCore} {a : UAttr} {v : Int} {r : Ret × UCore}
    (h : c.setAttr a v = .ok r) : r.2.lastPulse = c.lastPulse := by
  unfold UCore.setAttr at h
  cases a <;> dsimp only at h
  case waveform =>
    split at h
    · cases h; dsimp only; split <;> rfl
    · cases h; rfl
  case flagRelease =>
    split at h
    · split at h
      · split at h
        · cases h; rfl
        · obtain ⟨x, -, h⟩ := bind_ok_iff.1 h; cases h; rfl
      · cases h; rfl
    · cases h; rfl
  case dutyCycle => split at h <;> (cases h; rfl)
  case period => obtain ⟨x, -, h⟩ := bind_ok_iff.1 h; cases h; rfl
  case samplePeriod => obtain ⟨x, -, h⟩ := bind_ok_iff.1 h; cases h; rfl
  all_goals (cases h; rfl)

theorem UCore.setData_last {c : UCore} {ctx : Option Int} {t : DataAttr} {d : Option SampleData}
    {r : Ret × UCore} (h : c.setData ctx t d = .ok r) : r.2.lastPulse = c.lastPulse := by
  unfold UCore.setData at h
  obtain ⟨x, hx, h⟩ := bind_ok_iff.1 h
  have e : x.2.lastPulse = c.lastPulse := by
    unfold UCore.trySetData at hx
    split at hx
    · cases hx; rfl
    · split at hx
      · cases hx
        unfold UCore.trySetWave
        split <;> split <;> rfl
      · unfold UCore.trySetSample at hx
        split at hx
        · split at hx
          · cases hx; rfl
          · split at hx
            · cases hx; rfl
            · obtain ⟨y, -, hx⟩ := bind_ok_iff.1 hx; cases hx; rfl
        · split at hx <;> (cases hx; rfl)
  split at h
  · cases h; exact e
  · split at h <;> (cases h; exact e)

theorem UCore.updateSampleRange_last {c c' : UCore} {a b : Int}
    (h : c.updateSampleRange a b = .ok c') : c'.lastPulse = c.lastPulse := by
  unfold UCore.updateSampleRange at h
  split at h
  · cases h; rfl
  · obtain ⟨x1, -, h⟩ := bind_ok_iff.1 h
    obtain ⟨x2, -, h⟩ := bind_ok_iff.1 h
    obtain ⟨x3, -, h⟩ := bind_ok_iff.1 h
    obtain ⟨x4, -, h⟩ := bind_ok_iff.1 h
    obtain ⟨x5, -, h⟩ := bind_ok_iff.1 h
    obtain ⟨x6, -, h⟩ := bind_ok_iff.1 h
    cases h; rfl

theorem UCore.updateSustainRange_last {c c' : UCore} {a b : Int}
    (h : c.updateSustainRange a b = .ok c') : c'.lastPulse = c.lastPulse := by
  unfold UCore.updateSustainRange at h
  split at h
  · cases h; rfl
  · obtain ⟨x1, -, h⟩ := bind_ok_iff.1 h
    obtain ⟨x2, -, h⟩ := bind_ok_iff.1 h
    cases h; rfl

theorem UCore.setRange_last {c : UCore} {a : Option (Int × Int)} {r : Ret × UCore}
    (h : c.setRange a = .ok r) : r.2.lastPulse = c.lastPulse := by
  unfold UCore.setRange at h
  split at h
  · cases h; rfl
  · obtain ⟨x1, h1, h⟩ := bind_ok_iff.1 h
    obtain ⟨x2, h2, h⟩ := bind_ok_iff.1 h
    cases h
    exact (UCore.updateSustainRange_last h2).trans (UCore.updateSampleRange_last h1)

theorem UCore.setSustainRange_last {c : UCore} {a : Option (Int × Int)} {r : Ret × UCore}
    (h : c.setSustainRange a = .ok r) : r.2.lastPulse = c.lastPulse := by
  unfold UCore.setSustainRange at h
  split at h
  · cases h; rfl
  · obtain ⟨x1, h1, h⟩ := bind_ok_iff.1 h
    cases h
    exact UCore.updateSustainRange_last h1

theorem UCore.clear_last {c c' : UCore} {ctx : Option Int} (h : c.clear ctx = .ok c') :
    c'.lastPulse = c.lastPulse := by
  unfold UCore.clear at h
  obtain ⟨x1, h1, h⟩ := bind_ok_iff.1 h
  obtain ⟨x2, h2, h⟩ := bind_ok_iff.1 h
  cases h
  exact (UCore.setData_last h2).trans (UCore.setData_last h1)

theorem UCore.init_last {w : Int} {c : UCore} (h : UCore.init w = .ok c) :
    c.lastPulse = fun _ => 0 := by
  unfold UCore.init at h
  obtain ⟨x1, h1, h⟩ := bind_ok_iff.1 h
  obtain ⟨x2, h2, h⟩ := bind_ok_iff.1 h
  cases h
  exact (UCore.setAttr_last h2).trans (UCore.setAttr_last h1)

/-- Only running and resetting change the levels. -/
theorem BUnit.step_last {n : Nat} {u u' : BUnit} {op : UOp} {qs : List Pulse}
    (h : u.step n op = .ok (u', qs)) (h1 : op ≠ .reset) (h2 : ∀ e, op ≠ .run e) :
    u'.lastPulse = u.lastPulse ∧ qs = [] := by
  cases op <;> unfold BUnit.step at h <;> dsimp only at h
  case attr =>
    obtain ⟨x, hx, h⟩ := bind_ok_iff.1 h; cases h; exact ⟨UCore.setAttr_last hx, rfl⟩
  case data =>
    obtain ⟨x, hx, h⟩ := bind_ok_iff.1 h; cases h; exact ⟨UCore.setData_last hx, rfl⟩
  case range =>
    obtain ⟨x, hx, h⟩ := bind_ok_iff.1 h; cases h; exact ⟨UCore.setRange_last hx, rfl⟩
  case sustain =>
    obtain ⟨x, hx, h⟩ := bind_ok_iff.1 h; cases h; exact ⟨UCore.setSustainRange_last hx, rfl⟩
  case callback => cases h; exact ⟨rfl, rfl⟩
  case clear =>
    obtain ⟨x, hx, h⟩ := bind_ok_iff.1 h; cases h; exact ⟨UCore.clear_last hx, rfl⟩
  case reset => exact absurd rfl h1
  case run e => exact absurd rfl (h2 e)
  case endAt => cases h; exact ⟨rfl, rfl⟩

/-- The pulses `ps` lead from the levels of `c` to those of `c'`, up to multiples of 65536. -/
def Leads (c c' : UCore) (ps : List Pulse) : Prop :=
  ∀ i, (sumChan i ps - (c'.lastPulse i - c.lastPulse i)) % 65536 = 0

theorem sumChan_append (i : Nat) (a b : List Pulse) : sumChan i (a ++ b) = sumChan i a + sumChan i b := by
  unfold sumChan; rw [onChan_append, List.map_append, List.sum_append]

theorem sumChan_nil (i : Nat) : sumChan i [] = 0 := rfl

theorem sumChan_map (i j : Nat) : ∀ l : List (Int × Int),
    sumChan i (l.map fun p => (⟨j, p.1, p.2⟩ : Pulse)) = if j = i then (l.map (·.2)).sum else 0
  | [] => by simp [sumChan, onChan]
  | x :: l => by
    have := sumChan_map i j l
    unfold sumChan onChan at this ⊢
    by_cases h : j = i
    · simp only [List.map_cons, h, List.filter_cons, beq_self_eq_true, if_true, List.sum_cons] at this ⊢
      rw [this]
    · have hb : (j == i) = false := by simpa using h
      simp only [List.map_cons, List.filter_cons, hb, if_neg h, Bool.false_eq_true, if_false] at this ⊢
      rw [this]

theorem Leads.refl (c : UCore) : Leads c c [] := fun i => by simp [sumChan_nil]

theorem Leads.trans {a b c : UCore} {ps qs : List Pulse} (h1 : Leads a b ps) (h2 : Leads b c qs) :
    Leads a c (ps ++ qs) := fun i => by
  have := h1 i
  have := h2 i
  rw [sumChan_append]
  omega

theorem UCore.waveLoop_leads {c : UCore} {vol e : Int} : ∀ (n : Nat) {s s' : WaveSt}
    {l : List (Int × Int)}, c.waveLoop vol e n s = .ok (l, s') →
    ((l.map (·.2)).sum - (s'.last - s.last)) % 65536 = 0
  | 0, s, s', l, h => by cases h; simp
  | n + 1, s, s', l, h => by
    unfold UCore.waveLoop at h
    split at h
    · obtain ⟨r, hr, h⟩ := bind_ok_iff.1 h
      obtain ⟨rs, hrs, h⟩ := bind_ok_iff.1 h
      cases h
      have ih := UCore.waveLoop_leads n (s := r.2) (s' := rs.2) (l := rs.1) hrs
      unfold UCore.waveStep at hr
      obtain ⟨x, -, hr⟩ := bind_ok_iff.1 hr
      obtain ⟨y, -, hr⟩ := bind_ok_iff.1 hr
      obtain ⟨z, hz, hr⟩ := bind_ok_iff.1 hr
      have := (i32_eq_ok_iff.1 hz).2
      split at hr
      · cases hr
      · cases hr
        simp only [List.map_cons, List.sum_cons] at ih ⊢
        unfold wrapI16 at *
        omega
    · cases h; simp

theorem foldlM_inv {α β : Type} {P : β → Prop} {f : β → α → C β}
    (hf : ∀ b a b', P b → f b a = .ok b' → P b') : ∀ (l : List α) {b b' : β}, P b →
    l.foldlM f b = .ok b' → P b'
  | [], b, b', hb, h => by cases h; exact hb
  | a :: l, b, b', hb, h => by
    rw [List.foldlM_cons] at h
    obtain ⟨x, hx, h⟩ := bind_ok_iff.1 h
    exact foldlM_inv hf l (hf b a x hb hx) h

theorem UCore.waveFold_leads {c : UCore} {t0 e : Int} : ∀ (n : Nat) {r : Int × UCore × List Pulse},
    (List.range n).foldlM (c.waveChan t0 e) (0, c, []) = .ok r →
    Leads c r.2.1 r.2.2 ∧ ∀ j, n ≤ j → r.2.1.lastPulse j = c.lastPulse j
  | 0, r, h => by
    cases h; exact ⟨Leads.refl c, fun j _ => rfl⟩
  | n + 1, r, h => by
    rw [List.range_succ, List.foldlM_append] at h
    obtain ⟨x, hx, h⟩ := bind_ok_iff.1 h
    obtain ⟨ih, ih'⟩ := UCore.waveFold_leads n hx
    simp only [List.foldlM_cons, List.foldlM_nil] at h
    obtain ⟨y, hy, h⟩ := bind_ok_iff.1 h
    cases h
    unfold UCore.waveChan at hy
    split at hy
    · cases hy
      exact ⟨ih, fun j hj => ih' j (by omega)⟩
    · obtain ⟨z, hz, hy⟩ := bind_ok_iff.1 hy
      cases hy
      have hl := UCore.waveLoop_leads _ hz
      refine ⟨ih.trans (fun i => ?_), fun j hj => ?_⟩
      · rw [sumChan_map]
        dsimp only at hl ⊢
        unfold upd
        by_cases hi : i = n
        · subst hi
          rw [if_pos rfl, if_pos rfl, ih' i (by omega)]
          exact hl
        · rw [if_neg (fun h => hi h.symm), if_neg hi]
          simp
      · dsimp only
        unfold upd
        rw [if_neg (by omega)]
        exact ih' j (by omega)

theorem UCore.sampleChan_leads {t idx : Int} {st st' : UCore × List Pulse} {i : Nat}
    (h : UCore.sampleChan t idx st i = .ok st') : ∃ qs, st'.2 = st.2 ++ qs ∧ Leads st.1 st'.1 qs := by
  unfold UCore.sampleChan at h
  obtain ⟨p, -, h⟩ := bind_ok_iff.1 h
  obtain ⟨y, -, h⟩ := bind_ok_iff.1 h
  obtain ⟨z, hz, h⟩ := bind_ok_iff.1 h
  obtain ⟨w, -, h⟩ := bind_ok_iff.1 h
  cases h
  refine ⟨_, rfl, fun j => ?_⟩
  have := (i32_eq_ok_iff.1 hz).2
  have e := sumChan_map j i [(wrapU32 w, wrapI16 z)]
  simp only [List.map_cons, List.map_nil, List.sum_cons, List.sum_nil] at e
  rw [e]
  dsimp only
  unfold upd
  by_cases hj : j = i
  · subst hj
    rw [if_pos rfl, if_pos rfl]
    unfold wrapI16
    omega
  · rw [if_neg (fun h => hj h.symm), if_neg hj]; simp

theorem UCore.advance_last {c c' : UCore} (h : c.advance = .ok c') : c'.lastPulse = c.lastPulse := by
  unfold UCore.advance at h
  obtain ⟨p, -, h⟩ := bind_ok_iff.1 h
  obtain ⟨y, -, h⟩ := bind_ok_iff.1 h
  cases h; rfl

theorem UCore.resetSample_last {c : UCore} {r : Bool × UCore} (h : c.resetSample = .ok r) :
    r.2.lastPulse = c.lastPulse := by
  unfold UCore.resetSample at h
  obtain ⟨w, -, h⟩ := bind_ok_iff.1 h
  split at h
  · cases h; rfl
  · obtain ⟨y, -, h⟩ := bind_ok_iff.1 h
    cases h; rfl

theorem UCore.sustain_last {c c' : UCore} (h : c.sustain = .ok c') : c'.lastPulse = c.lastPulse := by
  unfold UCore.sustain at h
  split at h <;> split at h <;> (cases h; rfl)

theorem UCore.sampleFold_leads {t idx : Int} {c : UCore} {l : List Nat} {r : UCore × List Pulse}
    (h : l.foldlM (UCore.sampleChan t idx) (c, []) = .ok r) : Leads c r.1 r.2 := by
  refine foldlM_inv (P := fun st => Leads c st.1 st.2) ?_ l (Leads.refl c) h
  intro st i st' hst hs
  obtain ⟨qs, e, hq⟩ := UCore.sampleChan_leads hs
  rw [e]
  exact hst.trans hq

theorem Leads.of_eq {a b c : UCore} {ps : List Pulse} (h : Leads a b ps) (e : c.lastPulse = b.lastPulse) :
    Leads a c ps := fun i => by rw [e]; exact h i

theorem UCore.sampleStep_leads {c : UCore} {cb : Bool} {t : Int} {n : Nat}
    {r : Bool × UCore × List Pulse} (h : c.sampleStep cb t n = .ok r) : Leads c r.2.1 r.2.2 := by
  unfold UCore.sampleStep at h
  obtain ⟨x, hx, h⟩ := bind_ok_iff.1 h
  obtain ⟨y, hy, h⟩ := bind_ok_iff.1 h
  have h0 := UCore.sampleFold_leads hx
  have e1 := UCore.advance_last hy
  obtain ⟨z, hz, h⟩ := bind_ok_iff.1 h
  have e2 : z.2.lastPulse = x.1.lastPulse := by
    unfold UCore.checkRange at hz
    split at hz
    · exact (UCore.resetSample_last hz).trans e1
    · cases hz; exact e1
  split at h
  · cases h; exact h0.of_eq e2
  · obtain ⟨v, hv, h⟩ := bind_ok_iff.1 h
    cases h
    refine h0.of_eq ?_
    unfold UCore.checkSustain at hv
    split at hv
    · exact (UCore.sustain_last hv).trans e2
    · cases hv; exact e2

theorem UCore.sampleLoop_leads {cb : Bool} {e : Int} {n : Nat} : ∀ (k : Nat) {t : Int} {c : UCore}
    {r : Int × UCore × List Pulse}, UCore.sampleLoop cb e n k t c = .ok r → Leads c r.2.1 r.2.2
  | 0, t, c, r, h => by cases h; exact Leads.refl c
  | k + 1, t, c, r, h => by
    unfold UCore.sampleLoop at h
    split at h
    · obtain ⟨x, hx, h⟩ := bind_ok_iff.1 h
      have h0 := UCore.sampleStep_leads hx
      split at h
      · cases h; exact h0
      · obtain ⟨y, -, h⟩ := bind_ok_iff.1 h
        obtain ⟨z, hz, h⟩ := bind_ok_iff.1 h
        cases h
        exact h0.trans (UCore.sampleLoop_leads k hz)
    · cases h; exact Leads.refl c

theorem UCore.render_leads {c : UCore} {t0 e : Int} {n : Nat} {r : Int × UCore × List Pulse}
    (h : c.render t0 e n = .ok r) : Leads c r.2.1 r.2.2 := by
  unfold UCore.render at h
  obtain ⟨x, hx, h⟩ := bind_ok_iff.1 h
  cases h
  dsimp only
  unfold UCore.runAny at hx
  split at hx
  · cases hx; exact Leads.refl c
  · split at hx
    · cases hx; exact Leads.refl c
    · unfold UCore.runSample at hx
      split at hx
      · cases hx; exact Leads.refl c
      · obtain ⟨d, -, hx⟩ := bind_ok_iff.1 hx
        obtain ⟨d', -, hx⟩ := bind_ok_iff.1 hx
        split at hx
        · cases hx; exact Leads.refl c
        · obtain ⟨y, hy, hx⟩ := bind_ok_iff.1 hx
          cases hx
          have := UCore.sampleLoop_leads _ hy
          exact this
    · unfold UCore.runWaveform at hx
      split at hx
      · cases hx; exact Leads.refl c
      · exact (UCore.waveFold_leads n hx).1

/-- Phase and number of phases fit the waveform. -/
def PhaseInv (w : Wave) (phase count len : Int) : Prop :=
  match w with
  | .square => (0 ≤ phase ∧ phase < 16) ∧ count = 16
  | .triangle => (0 ≤ phase ∧ phase < 32) ∧ count = 32
  | .noise => (0 ≤ phase ∧ phase ≤ 65535) ∧ count = 8
  | .sawtooth => (0 ≤ phase ∧ phase < 7) ∧ count = 7
  | .sine => (0 ≤ phase ∧ phase < 32) ∧ count = 32
  | .custom => (0 ≤ phase ∧ phase < count) ∧ count ≤ 64 ∧ count ≤ len
  | _ => True

/-- What holds of a unit between calls. -/
structure UCore.Inv (c : UCore) : Prop where
  period : 0 ≤ c.period ∧ c.period ≤ 2147483647
  volume : ∀ i, 0 ≤ c.volume i ∧ c.volume i ≤ 32767
  last : ∀ i, InI16 (c.lastPulse i)
  duty : 1 ≤ c.dutyCycle ∧ c.dutyCycle ≤ 15
  wrap : WrapOk c.wrap (wrapU32 c.wrapCount)
  frames : ∀ v ∈ c.frames, InI16 v
  data : ∀ d, c.data = some d → d.Wf
  phase : PhaseInv c.waveform c.phase c.count c.frames.length

theorem UCore.Inv.waveOk {c : UCore} (h : c.Inv) : c.WaveOk := by
  refine ⟨h.period, h.volume, h.last, h.wrap, ?_⟩
  have hp := h.phase
  have hd := h.duty
  have hf := h.frames
  unfold PhaseInv at hp
  unfold UCore.startPhase
  cases hw : c.waveform <;> rw [hw] at hp <;> simp only [reduceCtorEq, false_and, if_false, true_and] <;>
    dsimp only at hp ⊢
  case square => exact ⟨hp.1, hd⟩
  case triangle => exact hp.1
  case sawtooth => exact hp.1
  case sine => exact hp.1
  case custom => exact ⟨hp.1, hp.2.2, hf⟩
  case noise => split <;> omega

theorem cclamp_in {x lo hi : Int} (h : lo ≤ hi) : lo ≤ cclamp x lo hi ∧ cclamp x lo hi ≤ hi := by
  unfold cclamp; split <;> (try split) <;> omega

theorem cabs_ok {x y : Int} (hx : InI32 x) (h : cabs x = .ok y) :
    0 ≤ y ∧ y ≤ 2147483647 ∧ (y = x ∨ y = -x) := by
  unfold cabs at h
  unfold InI32 at hx
  split at h
  · obtain ⟨h1, h2⟩ := i32_eq_ok_iff.1 h
    unfold InI32 at h1; omega
  · cases h; omega

theorem waveOfAttr_some {v n : Int} {w : Wave} (h : waveOfAttr v = some (w, n)) :
    (w = .none ∧ n = 16) ∨ (w = .square ∧ n = 16) ∨ (w = .triangle ∧ n = 32) ∨
    (w = .noise ∧ n = 8) ∨ (w = .sawtooth ∧ n = 7) ∨ (w = .sine ∧ n = 32) := by
  unfold waveOfAttr at h
  split at h
  · cases h; simp
  split at h
  · cases h; simp
  split at h
  · cases h; simp
  split at h
  · cases h; simp
  split at h
  · cases h; simp
  split at h
  · cases h; simp
  · cases h

/-- Setting an attribute, except for a release with immediate jump, keeps the invariant. -/
theorem UCore.setAttr_inv {c : UCore} {a : UAttr} {v : Int} {r : Ret × UCore} (hc : c.Inv)
    (hv : InI32 v) (ha : a = .flagRelease → v = 0 ∨ c.waveform = .sample ∨ c.sustainJump = false)
    (h : c.setAttr a v = .ok r) : r.2.Inv := by
  unfold UCore.setAttr at h
  cases a <;> dsimp only at h
  case waveform =>
    split at h
    · rename_i w n hw
      cases h
      have hwn := waveOfAttr_some hw
      by_cases hne : c.waveform ≠ w
      · simp only [if_pos hne]
        refine ⟨hc.period, hc.volume, hc.last, hc.duty, hc.wrap, hc.frames, by simp, ?_⟩
        unfold PhaseInv
        dsimp only
        rcases hwn with h | h | h | h | h | h <;> (obtain ⟨rfl, rfl⟩ := h; simp)
      · simp only [if_neg hne]
        refine ⟨hc.period, hc.volume, hc.last, hc.duty, hc.wrap, hc.frames, by simp, ?_⟩
        have hp := hc.phase
        rw [not_not.1 hne] at hp ⊢
        unfold PhaseInv at hp ⊢
        dsimp only at hp ⊢
        rcases hwn with h | h | h | h | h | h <;> (obtain ⟨rfl, rfl⟩ := h) <;>
          first | trivial | exact ⟨hp.1, rfl⟩
    · cases h; exact hc
  case flagRelease =>
    split at h
    · split at h
      · rename_i hj
        rcases ha rfl with h0 | h0 | h0
        · exact absurd h0 hj.1
        · have hp : ∀ x : Int, PhaseInv c.waveform x c.count c.frames.length := by
            intro x; rw [h0]; trivial
          split at h
          · cases h
            exact ⟨hc.period, hc.volume, hc.last, hc.duty, hc.wrap, hc.frames, hc.data, hp _⟩
          · obtain ⟨x, -, h⟩ := bind_ok_iff.1 h
            cases h
            exact ⟨hc.period, hc.volume, hc.last, hc.duty, hc.wrap, hc.frames, hc.data, hp _⟩
        · have := hj.2.1
          rw [h0] at this
          exact absurd this (by simp)
      · cases h
        exact ⟨hc.period, hc.volume, hc.last, hc.duty, hc.wrap, hc.frames, hc.data, hc.phase⟩
    · cases h; exact hc
  case dutyCycle =>
    have hd := cclamp_in (x := v) (lo := 1) (hi := 15) (by decide)
    split at h
    · cases h
      refine ⟨hc.period, hc.volume, hc.last, hd, hc.wrap, hc.frames, hc.data, ?_⟩
      dsimp only
      split
      · rename_i hs
        have hp := hc.phase
        rw [hs.1] at hp ⊢
        unfold PhaseInv at hp ⊢
        exact ⟨by decide, hp.2⟩
      · exact hc.phase
    · cases h; exact hc
  case phase =>
    cases h
    refine ⟨hc.period, hc.volume, hc.last, hc.duty, hc.wrap, hc.frames, hc.data, ?_⟩
    dsimp only
    unfold UCore.phaseValue
    have hp := hc.phase
    by_cases hs : c.waveform = .sample
    · rw [hs]; trivial
    · rw [if_pos hs]
      unfold PhaseInv at hp ⊢
      cases hw : c.waveform <;> rw [hw] at hp <;> dsimp only at hp ⊢
      all_goals
        first
        | trivial
        | (obtain ⟨h1, h2⟩ := hp
           have := cclamp_in (x := v) (lo := 0) (hi := wrapU32 (c.count - 1)) (by unfold wrapU32; omega)
           have : wrapU32 (c.count - 1) = c.count - 1 := by unfold wrapU32; omega
           exact ⟨by omega, by omega⟩)
  case phaseWrap =>
    cases h
    refine ⟨hc.period, hc.volume, hc.last, hc.duty, ?_, hc.frames, hc.data, ?_⟩
    · dsimp only
      unfold WrapOk InU32 wrapU32 cmax
      unfold InI32 at hv
      split <;> (try split) <;> omega
    · have hp := hc.phase
      unfold PhaseInv at hp ⊢
      dsimp only
      cases hw : c.waveform <;> rw [hw] at hp <;> dsimp only at hp ⊢
      all_goals first | trivial | exact ⟨by omega, hp.2⟩
  case period =>
    obtain ⟨x, hx, h⟩ := bind_ok_iff.1 h
    cases h
    have := cabs_ok hv hx
    refine ⟨?_, hc.volume, hc.last, hc.duty, hc.wrap, hc.frames, hc.data, hc.phase⟩
    dsimp only
    unfold cmax
    split <;> omega
  case volume =>
    cases h
    exact ⟨hc.period, fun i => cclamp_in (by decide), hc.last, hc.duty, hc.wrap, hc.frames, hc.data,
      hc.phase⟩
  case volumeOf i =>
    cases h
    refine ⟨hc.period, fun j => ?_, hc.last, hc.duty, hc.wrap, hc.frames, hc.data, hc.phase⟩
    dsimp only
    unfold upd
    split
    · exact cclamp_in (by decide)
    · exact hc.volume j
  case samplePeriod =>
    obtain ⟨x, -, h⟩ := bind_ok_iff.1 h
    cases h
    exact ⟨hc.period, hc.volume, hc.last, hc.duty, hc.wrap, hc.frames, hc.data, hc.phase⟩
  all_goals
    cases h
    exact ⟨hc.period, hc.volume, hc.last, hc.duty, hc.wrap, hc.frames, hc.data, hc.phase⟩

theorem PhaseInv.trivial_of {w : Wave} (h : w = .none ∨ w = .sample) (a b c : Int) : PhaseInv w a b c := by
  rcases h with rfl | rfl <;> trivial

theorem UCore.trySetWave_inv {c : UCore} {d : Option SampleData} (hc : c.Inv)
    (hd : ∀ x, d = some x → x.Wf) : (c.trySetWave d).2.Inv := by
  cases d with
  | some d =>
    have hw := hd d rfl
    unfold UCore.trySetWave
    dsimp only
    split
    · have h2 : d.numFrames ≤ d.frames.length := by
        rw [hw.frames]
        have := Int.mul_le_mul_of_nonneg_left hw.chans.1 hw.count.1
        omega
      refine ⟨hc.period, hc.volume, hc.last, hc.duty, hc.wrap, hw.range, hc.data, ?_⟩
      show (0 ≤ (0 : Int) ∧ _) ∧ _
      unfold cmin
      dsimp only
      split <;> omega
    · exact hc
  | none =>
    unfold UCore.trySetWave
    dsimp only
    split
    · exact ⟨hc.period, hc.volume, hc.last, hc.duty, hc.wrap, by simp, hc.data, trivial⟩
    · exact hc

theorem UCore.trySetSample_inv {c : UCore} {d : Option SampleData} {n : Int} {r : Ret × UCore}
    (hc : c.Inv) (hd : ∀ x, d = some x → x.Wf) (h : c.trySetSample d n = .ok r) : r.2.Inv := by
  cases d with
  | some d =>
    have hw := hd d rfl
    unfold UCore.trySetSample at h
    dsimp only at h
    split at h
    · cases h; exact hc
    · split at h
      · cases h; exact hc
      · obtain ⟨y, -, h⟩ := bind_ok_iff.1 h
        cases h
        exact ⟨hc.period, hc.volume, hc.last, hc.duty, hc.wrap, hw.range, hc.data, trivial⟩
  | none =>
    unfold UCore.trySetSample at h
    dsimp only at h
    split at h
    · cases h
      exact ⟨hc.period, hc.volume, hc.last, hc.duty, hc.wrap, by simp, hc.data, trivial⟩
    · cases h; exact hc

theorem UCore.setData_inv {c : UCore} {ctx : Option Int} {t : DataAttr} {d : Option SampleData}
    {r : Ret × UCore} (hc : c.Inv) (hd : ∀ x, d = some x → x.Wf) (h : c.setData ctx t d = .ok r) :
    r.2.Inv := by
  unfold UCore.setData at h
  obtain ⟨x, hx, h⟩ := bind_ok_iff.1 h
  have e : x.2.Inv := by
    unfold UCore.trySetData at hx
    split at hx
    · cases hx; exact hc
    · split at hx
      · cases hx
        exact UCore.trySetWave_inv hc hd
      · exact UCore.trySetSample_inv hc hd hx
  split at h
  · cases h
    exact ⟨e.period, e.volume, e.last, e.duty, e.wrap, e.frames, hd, e.phase⟩
  · split at h
    · cases h
      exact ⟨e.period, e.volume, e.last, e.duty, e.wrap, e.frames, e.data, trivial⟩
    · cases h; exact e

theorem UCore.updateSampleRange_inv {c c' : UCore} {a b : Int} (hc : c.Inv) (hw : c.waveform = .sample)
    (h : c.updateSampleRange a b = .ok c') : c'.Inv ∧ c'.waveform = .sample := by
  unfold UCore.updateSampleRange at h
  split at h
  · cases h; exact ⟨hc, hw⟩
  · rename_i d hd
    obtain ⟨x1, -, h⟩ := bind_ok_iff.1 h
    obtain ⟨x2, -, h⟩ := bind_ok_iff.1 h
    obtain ⟨x3, -, h⟩ := bind_ok_iff.1 h
    obtain ⟨x4, -, h⟩ := bind_ok_iff.1 h
    obtain ⟨x5, -, h⟩ := bind_ok_iff.1 h
    obtain ⟨x6, -, h⟩ := bind_ok_iff.1 h
    cases h
    refine ⟨⟨hc.period, hc.volume, hc.last, hc.duty, hc.wrap, ?_, hc.data, PhaseInv.trivial_of (.inr hw) _ _ _⟩, hw⟩
    intro v hv
    exact (hc.data d hd).range v (List.mem_of_mem_drop hv)

theorem UCore.updateSustainRange_inv {c c' : UCore} {a b : Int} (hc : c.Inv)
    (h : c.updateSustainRange a b = .ok c') : c'.Inv := by
  unfold UCore.updateSustainRange at h
  split at h
  · cases h; exact hc
  · obtain ⟨x1, -, h⟩ := bind_ok_iff.1 h
    obtain ⟨x2, -, h⟩ := bind_ok_iff.1 h
    cases h
    exact ⟨hc.period, hc.volume, hc.last, hc.duty, hc.wrap, hc.frames, hc.data, hc.phase⟩

theorem UCore.setRange_inv {c : UCore} {a : Option (Int × Int)} {r : Ret × UCore} (hc : c.Inv)
    (h : c.setRange a = .ok r) : r.2.Inv := by
  unfold UCore.setRange at h
  split at h
  · cases h; exact hc
  · rename_i hw
    obtain ⟨x1, h1, h⟩ := bind_ok_iff.1 h
    obtain ⟨x2, h2, h⟩ := bind_ok_iff.1 h
    cases h
    exact UCore.updateSustainRange_inv (UCore.updateSampleRange_inv hc (not_not.1 hw) h1).1 h2

theorem UCore.setSustainRange_inv {c : UCore} {a : Option (Int × Int)} {r : Ret × UCore} (hc : c.Inv)
    (h : c.setSustainRange a = .ok r) : r.2.Inv := by
  unfold UCore.setSustainRange at h
  split at h
  · cases h; exact hc
  · obtain ⟨x1, h1, h⟩ := bind_ok_iff.1 h
    cases h
    exact UCore.updateSustainRange_inv hc h1

theorem UCore.clear_inv {c c' : UCore} {ctx : Option Int} (hc : c.Inv) (h : c.clear ctx = .ok c') :
    c'.Inv := by
  unfold UCore.clear at h
  obtain ⟨x1, h1, h⟩ := bind_ok_iff.1 h
  obtain ⟨x2, h2, h⟩ := bind_ok_iff.1 h
  have i1 := UCore.setData_inv hc (by simp) h1
  have i2 := UCore.setData_inv i1 (by simp) h2
  cases h
  have hw : WrapOk 0 (wrapU32 0) := ⟨by decide, by decide, by simp⟩
  exact ⟨i2.period, i2.volume, i2.last, i2.duty, hw, i2.frames, i2.data, i2.phase⟩

theorem BUnit.reset_inv {u u' : BUnit} {ctx : Option Int} (hc : u.toUCore.Inv)
    (h : u.reset ctx = .ok u') : u'.toUCore.Inv := by
  unfold BUnit.reset at h
  obtain ⟨x1, h1, h⟩ := bind_ok_iff.1 h
  have i1 := UCore.clear_inv hc h1
  cases h
  refine ⟨i1.period, i1.volume, fun i => ?_, i1.duty, i1.wrap, i1.frames, i1.data, trivial⟩
  dsimp only
  split
  · decide
  · exact i1.last i

theorem UCore.init_inv {w : Int} {c : UCore} (h : UCore.init w = .ok c) : c.Inv := by
  unfold UCore.init at h
  obtain ⟨x1, h1, h⟩ := bind_ok_iff.1 h
  obtain ⟨x2, h2, h⟩ := bind_ok_iff.1 h
  cases h
  have i1 : x1.2.Inv := by
    cases h1
    exact ⟨by decide, fun _ => by simp, fun _ => by simp [InI16], by decide, by
      exact ⟨by decide, by decide, by simp⟩, by simp, by simp, trivial⟩
  have i2 : x2.2.Inv := by
    have hx : x1.2.waveform = .none := by cases h1; rfl
    unfold UCore.setAttr at h2
    dsimp only at h2
    split at h2
    · rename_i w n hw
      cases h2
      have hwn := waveOfAttr_some hw
      by_cases hne : x1.2.waveform ≠ w
      · simp only [if_pos hne]
        refine ⟨i1.period, i1.volume, i1.last, i1.duty, i1.wrap, i1.frames, by simp, ?_⟩
        unfold PhaseInv
        dsimp only
        rcases hwn with h | h | h | h | h | h <;> (obtain ⟨rfl, rfl⟩ := h; simp)
      · simp only [if_neg hne]
        exact ⟨i1.period, i1.volume, i1.last, i1.duty, i1.wrap, i1.frames, by simp,
          PhaseInv.trivial_of (.inl hx) _ _ _⟩
    · cases h2; exact i1
  exact ⟨i2.period, i2.volume, i2.last, i2.duty, i2.wrap, i2.frames, i2.data, i2.phase⟩

/-- Sample playback changes neither the waveform nor anything else the invariant speaks of, except
for the last levels. -/
structure SameSetup (c c' : UCore) : Prop where
  period : c'.period = c.period
  volume : c'.volume = c.volume
  duty : c'.dutyCycle = c.dutyCycle
  wrap : c'.wrap = c.wrap
  wrapCount : c'.wrapCount = c.wrapCount
  frames : c'.frames = c.frames
  data : c'.data = c.data
  waveform : c'.waveform = c.waveform

theorem SameSetup.refl (c : UCore) : SameSetup c c := ⟨rfl, rfl, rfl, rfl, rfl, rfl, rfl, rfl⟩

theorem SameSetup.trans {a b c : UCore} (h : SameSetup a b) (h' : SameSetup b c) : SameSetup a c :=
  ⟨h'.1.trans h.1, h'.2.trans h.2, h'.3.trans h.3, h'.4.trans h.4, h'.5.trans h.5, h'.6.trans h.6,
    h'.7.trans h.7, h'.8.trans h.8⟩

/-- Playback of a sample keeps the invariant. -/
def SampleInv (c c' : UCore) : Prop := SameSetup c c' ∧ ∀ i, InI16 (c'.lastPulse i)

theorem SampleInv.inv {c c' : UCore} (hc : c.Inv) (hw : c.waveform = .sample) (h : SampleInv c c') :
    c'.Inv := by
  obtain ⟨s, hl⟩ := h
  refine ⟨s.period ▸ hc.period, s.volume ▸ hc.volume, hl, s.duty ▸ hc.duty, ?_, s.frames ▸ hc.frames,
    s.data ▸ hc.data, PhaseInv.trivial_of (.inr (s.waveform.trans hw)) _ _ _⟩
  rw [s.wrap, s.wrapCount]; exact hc.wrap

theorem rd_mem_of_ok {α} {a : List α} {i : Int} {v : α} (h : rd a i = .ok v) :
    0 ≤ i ∧ i < a.length ∧ v ∈ a := by
  unfold rd at h
  split at h
  · rename_i hi
    split at h
    · rename_i x hx
      cases h
      exact ⟨hi, by have := (List.getElem?_eq_some_iff.1 hx).1; omega, List.mem_of_getElem? hx⟩
    · cases h
  · cases h

theorem UCore.sampleChan_inv {t idx : Int} {c0 : UCore} (h0 : c0.Inv) {st st' : UCore × List Pulse}
    {i : Nat} (hs : SampleInv c0 st.1) (h : UCore.sampleChan t idx st i = .ok st') :
    SampleInv c0 st'.1 := by
  unfold UCore.sampleChan at h
  obtain ⟨p, hp, h⟩ := bind_ok_iff.1 h
  obtain ⟨y, hy, h⟩ := bind_ok_iff.1 h
  obtain ⟨z, hz, h⟩ := bind_ok_iff.1 h
  obtain ⟨w, -, h⟩ := bind_ok_iff.1 h
  cases h
  refine ⟨hs.1.trans ⟨rfl, rfl, rfl, rfl, rfl, rfl, rfl, rfl⟩, fun j => ?_⟩
  dsimp only
  unfold upd
  split
  · have hm := (rd_mem_of_ok hp).2.2
    rw [hs.1.frames] at hm
    have hb := h0.frames p hm
    have hv := h0.volume i
    rw [← hs.1.volume] at hv
    have hl := level_bound (v := p) (vol := st.1.volume i) hb hv
    rw [(i32_eq_ok_iff.1 hy).2]
    unfold level at hl
    unfold InI16
    omega
  · exact hs.2 j

theorem UCore.sampleStep_inv {c0 c : UCore} (h0 : c0.Inv) (hs : SampleInv c0 c) {cb : Bool} {t : Int}
    {n : Nat} {r : Bool × UCore × List Pulse} (h : c.sampleStep cb t n = .ok r) :
    SampleInv c0 r.2.1 := by
  unfold UCore.sampleStep at h
  obtain ⟨x, hx, h⟩ := bind_ok_iff.1 h
  obtain ⟨y, hy, h⟩ := bind_ok_iff.1 h
  have h1 : SampleInv c0 x.1 := foldlM_inv (P := fun st : UCore × List Pulse => SampleInv c0 st.1)
    (fun st i st' hst hs => UCore.sampleChan_inv h0 hst hs) _ hs hx
  have h2 : SampleInv c0 y := by
    unfold UCore.advance at hy
    obtain ⟨p, -, hy⟩ := bind_ok_iff.1 hy
    obtain ⟨q, -, hy⟩ := bind_ok_iff.1 hy
    cases hy
    exact ⟨h1.1.trans ⟨rfl, rfl, rfl, rfl, rfl, rfl, rfl, rfl⟩, h1.2⟩
  obtain ⟨z, hz, h⟩ := bind_ok_iff.1 h
  have h3 : SampleInv c0 z.2 := by
    unfold UCore.checkRange at hz
    split at hz
    · unfold UCore.resetSample at hz
      obtain ⟨w, -, hz⟩ := bind_ok_iff.1 hz
      split at hz
      · cases hz
        exact ⟨h2.1.trans ⟨rfl, rfl, rfl, rfl, rfl, rfl, rfl, rfl⟩, h2.2⟩
      · obtain ⟨y, -, hz⟩ := bind_ok_iff.1 hz
        cases hz
        exact ⟨h2.1.trans ⟨rfl, rfl, rfl, rfl, rfl, rfl, rfl, rfl⟩, h2.2⟩
    · cases hz; exact h2
  split at h
  · cases h; exact h3
  · obtain ⟨v, hv, h⟩ := bind_ok_iff.1 h
    cases h
    unfold UCore.checkSustain UCore.sustain at hv
    split at hv
    · split at hv <;> split at hv <;>
        (cases hv; first | exact h3 | exact ⟨h3.1.trans ⟨rfl, rfl, rfl, rfl, rfl, rfl, rfl, rfl⟩, h3.2⟩)
    · cases hv; exact h3

theorem UCore.sampleLoop_inv {c0 : UCore} (h0 : c0.Inv) {cb : Bool} {e : Int} {n : Nat} :
    ∀ (k : Nat) {t : Int} {c : UCore} {r : Int × UCore × List Pulse}, SampleInv c0 c →
    UCore.sampleLoop cb e n k t c = .ok r → SampleInv c0 r.2.1
  | 0, t, c, r, hs, h => by cases h; exact hs
  | k + 1, t, c, r, hs, h => by
    unfold UCore.sampleLoop at h
    split at h
    · obtain ⟨x, hx, h⟩ := bind_ok_iff.1 h
      have h1 := UCore.sampleStep_inv h0 hs hx
      split at h
      · cases h; exact h1
      · obtain ⟨y, -, h⟩ := bind_ok_iff.1 h
        obtain ⟨z, hz, h⟩ := bind_ok_iff.1 h
        cases h
        have := UCore.sampleLoop_inv h0 k h1 hz
        exact this
    · cases h; exact hs

theorem UCore.afterWave_inv {c : UCore} (h : c.Inv) {vs : List Int} {p w : Int}
    (hp : c.PhaseOk p w) (hv : ∀ v ∈ vs, -32768 ≤ v ∧ v ≤ 32767) (n : Nat) :
    (c.afterWave vs p w n).Inv := by
  have ho := UCore.afterWave_ok h.waveOk hp hv n
  cases hon : c.on n
  · rw [UCore.off_after hon]; exact h
  · refine ⟨h.period, h.volume, ho.last, h.duty, ?_, h.frames, h.data, ?_⟩
    · rw [(UCore.afterWave_start hon hp).2]; exact hp.1
    · have e : (c.afterWave vs p w n).phase = p := by unfold UCore.afterWave; simp [hon]
      have e1 : (c.afterWave vs p w n).waveform = c.waveform := rfl
      rw [e, e1]
      have hi := h.phase
      have hp := hp.2
      unfold PhaseInv at hi ⊢
      cases hwv : c.waveform <;> rw [hwv] at hi hp <;> dsimp only at hi hp ⊢
      case square => exact ⟨hp.1, hi.2⟩
      case triangle => exact ⟨hp, hi.2⟩
      case noise => exact ⟨by omega, hi.2⟩
      case sawtooth => exact ⟨hp, hi.2⟩
      case sine => exact ⟨hp, hi.2⟩
      case custom => exact ⟨hp.1, hi.2⟩

/-- Rendering a table waveform never fails and keeps the invariant. -/
theorem UCore.render_wave_ok {c : UCore} (h : c.Inv) (hw : c.waveform.tabled) (t0 : Int) {e : Int}
    (h0 : 0 ≤ e) (he : e ≤ 2147483648) (n : Nat) :
    ∃ t c' ps, c.render t0 e n = .ok (t, c', ps) ∧ c'.Inv := by
  by_cases hp : c.period = 0
  · exact ⟨_, c, [], by unfold UCore.render UCore.runAny; rw [if_pos hp]; rfl, h⟩
  · by_cases hm : c.mute = 0
    · have hp1 := h.period
      obtain ⟨vs, p, w, hv, hok, hl, hr⟩ :=
        UCore.waveVals_ok (pulseCount t0 e c.period) h.waveOk.phase
      exact ⟨_, _, _, UCore.render_eq hw h.waveOk (by omega) (by omega) hm h0 hv n,
        UCore.afterWave_inv h hok hr n⟩
    · refine ⟨e, c, [], ?_, h⟩
      rw [UCore.render_wave hw hp]
      unfold UCore.runWaveform
      rw [if_pos hm]
      simp only [ok_bind, pure_eq_ok]
      congr 2
      split <;> omega

theorem UCore.render_inv {c : UCore} (h : c.Inv) {t0 e : Int} (h0 : 0 ≤ e) (he : e ≤ 2147483648)
    {n : Nat} {r : Int × UCore × List Pulse} (hr : c.render t0 e n = .ok r) : r.2.1.Inv := by
  by_cases hw : c.waveform.tabled
  · obtain ⟨t, c', ps, e1, e2⟩ := UCore.render_wave_ok h hw t0 h0 he n
    rw [hr] at e1
    cases e1
    exact e2
  · unfold UCore.render at hr
    obtain ⟨x, hx, hr⟩ := bind_ok_iff.1 hr
    cases hr
    dsimp only
    unfold UCore.runAny at hx
    split at hx
    · cases hx; exact h
    · split at hx
      · cases hx; exact h
      · rename_i hs
        unfold UCore.runSample at hx
        split at hx
        · cases hx; exact h
        · obtain ⟨d, -, hx⟩ := bind_ok_iff.1 hx
          obtain ⟨d', -, hx⟩ := bind_ok_iff.1 hx
          split at hx
          · cases hx; exact h
          · obtain ⟨y, hy, hx⟩ := bind_ok_iff.1 hx
            cases hx
            have := UCore.sampleLoop_inv h _ ⟨SameSetup.refl c, h.last⟩ hy
            exact SampleInv.inv h hs this
      · rename_i h1 h2
        exact absurd ⟨h1, h2⟩ hw

theorem BUnit.step_inv {n : Nat} {u u' : BUnit} {op : UOp} {qs : List Pulse} (hu : u.toUCore.Inv)
    (hl : op.Legal) (hp : NoStrayRelease u op) (h : u.step n op = .ok (u', qs)) : u'.toUCore.Inv := by
  cases op <;> unfold BUnit.step at h <;> dsimp only at h
  case attr a v =>
    obtain ⟨x, hx, h⟩ := bind_ok_iff.1 h
    cases h
    exact UCore.setAttr_inv hu hl (fun e => hp v (by rw [e])) hx
  case data t d =>
    obtain ⟨x, hx, h⟩ := bind_ok_iff.1 h
    cases h
    exact UCore.setData_inv hu (fun y hy => by subst hy; exact hl) hx
  case range =>
    obtain ⟨x, hx, h⟩ := bind_ok_iff.1 h; cases h; exact UCore.setRange_inv hu hx
  case sustain =>
    obtain ⟨x, hx, h⟩ := bind_ok_iff.1 h; cases h; exact UCore.setSustainRange_inv hu hx
  case callback =>
    cases h
    exact ⟨hu.period, hu.volume, hu.last, hu.duty, hu.wrap, hu.frames, hu.data, hu.phase⟩
  case clear =>
    obtain ⟨x, hx, h⟩ := bind_ok_iff.1 h; cases h; exact UCore.clear_inv hu hx
  case reset =>
    obtain ⟨x, hx, h⟩ := bind_ok_iff.1 h; cases h; exact BUnit.reset_inv hu hx
  case run e =>
    obtain ⟨x, hx, h⟩ := bind_ok_iff.1 h
    cases h
    exact UCore.render_inv hu hl.1 (by have := hl.2; omega) hx
  case endAt => cases h; exact hu

theorem Reach.inv {n : Nat} {P : BUnit → UOp → Prop} (hP : ∀ u op, P u op → NoStrayRelease u op)
    {u : BUnit} {ps : List Pulse} (h : Reach n P u ps) : u.toUCore.Inv := by
  induction h with
  | init h => exact UCore.init_inv h
  | step _ hl hp hs ih => exact BUnit.step_inv ih hl (hP _ _ hp) hs

end BK
