import Verif.Spec.Tempo
import Verif.Props.Clock
/-!
C92: changing the tempo.
-/
namespace BK

variable {σ : Type}

theorem lastSet_append (l l' : List (Int × Int)) (p : Int) : lastSet (l ++ l') p = lastSet l' (lastSet l p) := by
  induction l generalizing p with
  | nil => rfl
  | cons c cs ih => exact ih _

/-- A period that is set after a tick does not change it. -/
theorem beat_append {g : Int → Int} {sets : List (Int × Int)} {p T q : Int} :
    ∀ (m : Nat), (∀ j, j ≤ m → (beat g sets p j).1 < T) → beat g (sets ++ [(T, q)]) p m = beat g sets p m
  | 0, h => by
    have h0 := h 0 (Nat.le_refl _)
    unfold beat at h0 ⊢
    dsimp only at h0
    rw [List.filter_append, List.filter_cons_of_neg (by simp; omega)]
    simp
  | m + 1, h => by
    have ih := beat_append (q := q) m fun j hj => h j (by omega)
    have h1 := h (m + 1) (Nat.le_refl _)
    unfold beat at h1 ⊢
    dsimp only at h1 ⊢
    rw [ih, List.filter_append, List.filter_cons_of_neg (by simp; omega)]
    simp

theorem beat_append_time {g : Int → Int} {sets : List (Int × Int)} {p T q : Int} (m : Nat)
    (h : ∀ j, j < m → (beat g sets p j).1 < T) :
    (beat g (sets ++ [(T, q)]) p m).1 = (beat g sets p m).1 := by
  cases m with
  | zero => rfl
  | succ m =>
    have := beat_append (q := q) m fun j hj => h j (by omega)
    unfold beat
    dsimp only
    rw [this]

/-- The period of the clock before tick `m`. -/
def pending (g : Int → Int) (sets : List (Int × Int)) (p : Int) : Nat → Int
  | 0 => lastSet sets p
  | k + 1 => lastSet (sets.filter fun c => (beat g sets p k).1 < c.1) (beat g sets p k).2

theorem pending_append {g : Int → Int} {sets : List (Int × Int)} {p T q : Int} (m : Nat)
    (h : ∀ j, j < m → (beat g sets p j).1 < T) : pending g (sets ++ [(T, q)]) p m = q := by
  cases m with
  | zero => unfold pending; rw [lastSet_append]; rfl
  | succ m =>
    have hb := beat_append (q := q) m fun j hj => h j (by omega)
    have h1 := h m (by omega)
    unfold pending
    dsimp only
    rw [hb, List.filter_append, List.filter_cons_of_pos (by simp; omega), lastSet_append]
    rfl

/-- The state of a clock whose tempo is changed. -/
def InTempo (g : Int → Int) (sets : List (Int × Int)) (p : Int) (tks : List Int) (next q : Int) : Prop :=
  0 < q ∧ (∀ c ∈ sets, c.1 ≤ next) ∧ ∃ m : Nat, tks = (List.range m).map (fun k => (beat g sets p k).1) ∧
    next = (beat g sets p m).1 ∧ q = pending g sets p m

theorem beat_gap {g : Int → Int} {sets : List (Int × Int)} {p : Int} (m : Nat)
    (h : ∀ c ∈ sets, c.1 ≤ (beat g sets p m).1) :
    (beat g sets p m).2 = chosen g (beat g sets p m).1 (pending g sets p m) := by
  cases m with
  | zero =>
    unfold beat pending at *
    dsimp only at *
    rw [List.filter_eq_self.2 fun c hc => by simpa using h c hc]
  | succ m =>
    have h' : sets.filter (fun c => decide ((beat g sets p m).1 < c.1 ∧ c.1 ≤ (beat g sets p (m + 1)).1)) =
        sets.filter (fun c => decide ((beat g sets p m).1 < c.1)) := by
      refine List.filter_congr fun c hc => ?_
      have := h c hc
      simp [this]
    unfold pending
    dsimp only
    rw [← h']
    rfl

theorem CbChoose.law {cb : ClockCb σ} {i : Nat} {g : Int → Int} (h : CbChoose cb i g) (sets : List (Int × Int))
    (p : Int) : LawOk cb i (InTempo g sets p) := by
  refine ⟨h.typed, ?_⟩
  rintro tks t q ⟨hq, hs, m, rfl, rfl, rfl⟩ s us r hr
  have hg := h.own _ _ _ _ hr
  have gap := beat_gap m hs
  have hnone : sets.filter (fun c => decide ((beat g sets p m).1 < c.1)) = [] := by
    refine List.filter_eq_nil_iff.2 fun c hc => ?_
    have := hs c hc
    simp; omega
  have hpend : pending g sets p (m + 1) = (beat g sets p m).2 := by
    unfold pending; dsimp only; rw [hnone]; rfl
  have hlist : (List.range m).map (fun k => (beat g sets p k).1) ++ [(beat g sets p m).1] =
      (List.range (m + 1)).map (fun k => (beat g sets p k).1) := by
    rw [List.range_succ, List.map_append]; rfl
  have htime : (beat g sets p (m + 1)).1 = (beat g sets p m).1 + (beat g sets p m).2 := rfl
  rw [hlist]
  generalize pending g sets p m = q at *
  unfold chosen at gap
  constructor
  · intro hlt
    rw [if_pos (by omega)] at gap
    exact ⟨by omega, fun c hc => by have := hs c hc; omega, m + 1, rfl, by omega, by omega⟩
  · intro hle
    rw [if_neg (by omega)] at gap
    exact ⟨by omega, fun c hc => by have := hs c hc; omega, m + 1, rfl, by omega, by omega⟩

theorem InTempo.set {g : Int → Int} {sets : List (Int × Int)} {p : Int} {tks : List Int} {next q : Int}
    (h : InTempo g sets p tks next q) {T p' : Int} (hp : 0 < p') (ht : ∀ t ∈ tks, t < T) (hn : T ≤ next) :
    InTempo g (sets ++ [(T, p')]) p tks next p' := by
  obtain ⟨-, hs, m, rfl, rfl, rfl⟩ := h
  have hj : ∀ j, j < m → (beat g sets p j).1 < T := fun j hj =>
    ht _ (List.mem_map.2 ⟨j, by simp [hj], rfl⟩)
  have e1 := beat_append_time (q := p') m hj
  refine ⟨hp, ?_, m, ?_, e1.symm, (pending_append m hj).symm⟩
  · intro c hc
    rcases List.mem_append.1 hc with hc | hc
    · exact hs c hc
    · rw [List.mem_singleton] at hc; subst hc; exact hn
  · refine List.map_congr_left fun k hk => ?_
    rw [List.mem_range] at hk
    exact (beat_append_time (q := p') k fun j hjk => hj j (by omega)).symm

theorem setPeriod_law {g : Int → Int} {sets : List (Int × Int)} {p p' : Int} {i : Nat} {x : Ctx σ}
    (h : ClockLaw i (InTempo g sets p) x) :
    ClockLaw i (InTempo g (if (x.setPeriod i p').1 = .ok then sets ++ [(x.getTime, p')] else sets) p)
      (x.setPeriod i p').2 := by
  unfold Ctx.setPeriod T64.isGreater
  by_cases hp : p' > 0
  · simp only [hp, decide_true, if_true]
    obtain ⟨c, c1, c2, c3⟩ := h.one
    have hall := h.all c (List.mem_of_getElem? c1)
    constructor
    · intro d hd
      dsimp only at hd ⊢
      obtain ⟨j, hj, rfl⟩ := List.getElem_of_mem hd
      rw [List.getElem_modify]
      have hj' : j < x.clocks.length := by simpa using hj
      have := h.all _ (List.getElem_mem hj')
      split
      · exact ⟨this.1, this.2.1, hp, this.2.2.2⟩
      · exact this
    · refine ⟨c.setPeriod p', ?_, c2.set hp c3 hall.2.1, c3⟩
      dsimp only
      rw [List.getElem?_modify, c1]; simp
  · have hp' : ¬ 0 < p' := hp
    simp [hp']
    exact h

theorem tempo_law {chk : Bool} {cb : ClockCb σ} {i : Nat} {g : Int → Int} (hcb : CbChoose cb i g) {p : Int} :
    ∀ (ops : List (TempoOp σ)) {x : Ctx σ} {sets : List (Int × Int)} {r : Ctx σ × List (Int × Int)},
      ClockLaw i (InTempo g sets p) x → x.tempo chk cb i sets ops = .ok r → ClockLaw i (InTempo g r.2 p) r.1
  | [], x, sets, r, h, hr => by cases hr; exact h
  | .call op :: ops, x, sets, r, h, hr => by
    unfold Ctx.tempo at hr
    obtain ⟨y, hy, hr⟩ := bind_ok_iff.1 hr
    exact tempo_law hcb ops (h.step (hcb.law _ _) hy) hr
  | .period p' :: ops, x, sets, r, h, hr => by
    unfold Ctx.tempo at hr
    exact tempo_law hcb ops (setPeriod_law h) hr

theorem Ctx.Fresh.tempo {x : Ctx σ} (h : x.Fresh) {i : Nat} {c : Clk} (hi : x.clocks[i]? = some c) (g : Int → Int) :
    ClockLaw i (InTempo g [] c.period) x := by
  obtain ⟨h1, h2, h3⟩ := h.clocks c (List.mem_of_getElem? hi)
  refine ⟨fun d hd => ?_, c, hi, ⟨h3, by simp, 0, ?_, h2, rfl⟩, ?_⟩
  · obtain ⟨h1, h2, h3⟩ := h.clocks d hd
    rw [h.now, h1, h2]
    exact ⟨rfl, Int.le_refl _, h3, by decide⟩
  · rw [h.ticks]; rfl
  · rw [h.ticks]; simp [ticksAt]

/-- C92: a clock of a context whose period is set at any times, to any values, between any other calls,
and whose callback chooses next times as it likes, has ticked exactly at the times of its beats that lie
before the context's time, once each and in order.  So a new period counts from the tick that follows the
call; the time of this tick is not moved; no tick is lost or doubled. -/
theorem C92_tempo {chk : Bool} {cb : ClockCb σ} {x x' : Ctx σ} (hx : x.Fresh) {i : Nat} {c : Clk}
    (hi : x.clocks[i]? = some c) {g : Int → Int} (hcb : CbChoose cb i g) {ops : List (TempoOp σ)}
    {sets : List (Int × Int)} (h : x.tempo chk cb i [] ops = .ok (x', sets)) :
    ∃ m : Nat, x'.ticksOf i = (List.range m).map (fun k => (beat g sets c.period k).1) ∧
      (∀ j, j < m → (beat g sets c.period j).1 < x'.getTime) ∧ x'.getTime ≤ (beat g sets c.period m).1 := by
  have hl := tempo_law hcb ops (hx.tempo hi g) h
  obtain ⟨d, d1, ⟨-, -, m, d2, d3, -⟩, d4⟩ := hl.one
  dsimp only at d1 d2 d4
  refine ⟨m, d2, fun j hj => d4 _ ?_, ?_⟩
  · rw [d2]; exact List.mem_map.2 ⟨j, by simp [hj], rfl⟩
  · rw [← d3]; exact (hl.all d (List.mem_of_getElem? d1)).2.1

/-- The ticks of a clock after its period was changed to `q` before its tick `m`. -/
def Changed (p q : Int) (m : Nat) (tks : List Int) (next r : Int) : Prop :=
  r = q ∧ ∃ k : Nat, next = m * p + k * q ∧
    tks = multiples p m ++ (List.range k).map fun j : Nat => (m : Int) * p + (j : Int) * q

theorem CbPlain.changed {cb : ClockCb σ} {i : Nat} (h : CbPlain cb i) (p q : Int) (m : Nat) :
    LawOk cb i (Changed p q m) := by
  refine ⟨h.typed, ?_⟩
  rintro tks t r ⟨rfl, k, rfl, rfl⟩ s us r' hr
  have := h.plain _ _ _ _ hr
  refine ⟨fun h => absurd h (by omega), fun _ => ⟨rfl, k + 1, ?_, ?_⟩⟩
  · push_cast; ring
  · rw [List.range_succ, List.map_append, ← List.append_assoc]
    rfl

/-- C92: if the period is changed once, from `p` to `q`, the ticks before the call are at multiples of
`p`, the next one as well, and the following ones every `q`. -/
theorem C92_change {chk : Bool} {cb : ClockCb σ} {x x1 x2 x3 : Ctx σ} (hx : x.Fresh) {i : Nat} {c : Clk}
    (hi : x.clocks[i]? = some c) (hcb : CbPlain cb i) {before after : List (CtxOp σ)} {q : Int}
    (h1 : x.steps chk cb before = .ok x1) (h2 : x1.setPeriod i q = (.ok, x2))
    (h3 : x2.steps chk cb after = .ok x3) :
    ∃ m k : Nat, x1.ticksOf i = multiples c.period m ∧
      x3.ticksOf i = multiples c.period m ++
        (List.range k).map (fun j : Nat => (m : Int) * c.period + (j : Int) * q) ∧
      ∀ j : Nat, j < k ↔ (m : Int) * c.period + j * q < x3.getTime := by
  have l1 := ClockLaw.steps (hcb.law c.period) before (hx.clockInv hi) h1
  obtain ⟨d, d1, ⟨d2, m, d3, d4⟩, d5⟩ := l1.one
  have hq : 0 < q := by
    unfold Ctx.setPeriod T64.isGreater at h2
    by_cases hq : q > 0
    · exact hq
    · simp [show ¬ 0 < q from hq] at h2
  have l2 : ClockLaw i (Changed c.period q m) x2 := by
    unfold Ctx.setPeriod T64.isGreater at h2
    rw [if_pos (by simpa using hq)] at h2
    cases h2
    constructor
    · intro e he
      dsimp only at he ⊢
      obtain ⟨j, hj, rfl⟩ := List.getElem_of_mem he
      rw [List.getElem_modify]
      have hj' : j < x1.clocks.length := by simpa using hj
      have := l1.all _ (List.getElem_mem hj')
      split
      · exact ⟨this.1, this.2.1, hq, this.2.2.2⟩
      · exact this
    · refine ⟨d.setPeriod q, ?_, ⟨rfl, 0, ?_, ?_⟩, d5⟩
      · dsimp only
        rw [List.getElem?_modify, d1]; simp
      · show d.nextTime = _
        rw [d3]; simp
      · dsimp only
        rw [d4]; simp
  have l3 := ClockLaw.steps (hcb.changed c.period q m) after l2 h3
  obtain ⟨e, e1, ⟨e2, k, e3, e4⟩, e5⟩ := l3.one
  refine ⟨m, k, d4, e4, fun j => ⟨fun hj => e5 _ ?_, fun hj => ?_⟩⟩
  · rw [e4]
    exact List.mem_append_right _ (List.mem_map.2 ⟨j, by simp [hj], rfl⟩)
  · have h1 := (l3.all e (List.mem_of_getElem? e1)).2.1
    rw [e3] at h1
    unfold Ctx.getTime at hj
    have : (j : Int) * q < k * q := by omega
    have := Int.lt_of_mul_lt_mul_right this (by omega)
    omega

/-- C92: exactly the positive periods are accepted; an accepted period is reported at once, a refused
one changes nothing, and setting a period changes no other clock and nothing else. -/
theorem C92_report (x : Ctx σ) (i : Nat) (p : Int) (hi : i < x.clocks.length) :
    ((x.setPeriod i p).1 = .ok ↔ 0 < p) ∧
    (0 < p → (x.setPeriod i p).2.getPeriod i = .ok p ∧
      (∀ j, j ≠ i → (x.setPeriod i p).2.clocks[j]? = x.clocks[j]?) ∧
      (x.setPeriod i p).2 = { x with clocks := (x.setPeriod i p).2.clocks }) ∧
    (¬ 0 < p → x.setPeriod i p = (.invalidValue, x)) := by
  unfold Ctx.setPeriod T64.isGreater
  by_cases hp : 0 < p
  · have hp' : p > 0 := hp
    simp only [hp', decide_true, if_true, true_imp_iff, not_true, false_imp_iff, and_true]
    refine ⟨trivial, ?_, fun j hj => ?_⟩
    · unfold Ctx.getPeriod
      dsimp only
      obtain ⟨c, hc⟩ : ∃ c, x.clocks[i]? = some c := ⟨_, List.getElem?_eq_getElem hi⟩
      have : (x.clocks.modify i fun c => c.setPeriod p)[i]? = some (c.setPeriod p) := by
        rw [List.getElem?_modify, hc]; simp
      have hr : rd (x.clocks.modify i fun c => c.setPeriod p) (i : Int) = .ok (c.setPeriod p) := by
        unfold rd
        rw [if_pos (by omega), Int.toNat_natCast, this]
      rw [hr, ok_bind]
      rfl
    · rw [List.getElem?_modify]
      simp [show ¬ i = j by omega]
  · have hp' : ¬ p > 0 := hp
    simp [hp']

/-- C92: the kernel of a context is the one that was set, for all channels; `NULL` sets the one a
context has at first. -/
theorem C92_kernel (x : Ctx σ) (hx : 0 < x.chans.length) (k : Option (List (List Int))) :
    (x.setKernel k).1 = .ok ∧ (x.setKernel k).2.getKernel = .ok (k.getD Buf.init.kernel) ∧
    ∀ b ∈ (x.setKernel k).2.chans, b.kernel = k.getD Buf.init.kernel := by
  refine ⟨rfl, ?_, ?_⟩
  · unfold Ctx.getKernel Ctx.setKernel
    cases hc : x.chans with
    | nil => rw [hc] at hx; exact absurd hx (by decide)
    | cons b bs => rfl
  · intro b hb
    obtain ⟨a, -, rfl⟩ := List.mem_map.1 hb
    rfl

/-- Callbacks that slow the clock down at its tick at 14 frames. -/
def slowCb : ClockCb Unit where
  tick i t s us := .ok (if i = 0 ∧ t = 14680064 then t + 6291456 else t, s, us)

/-- Two clocks; the period of the first, 3 frames, is set to 4 frames, which counts from frame 6 on; at frame 14 its
callback chooses 6 frames; then the period is set to 0 (refused) and to 2 frames. -/
example : twoClocks.Fresh ∧ twoClocks.clocks[0]? = some { period := 3145728 } ∧
    CbChoose slowCb 0 (fun t => if t = 14680064 then t + 6291456 else t) ∧
    (twoClocks.tempo false slowCb 0 [] [.call (.generate 5), .period 4194304, .call (.endAt 5242880),
      .call (.read 5), .call (.generate 9), .period 0, .period 2097152, .call (.generate 10)]).map
        (fun r => (r.1.ticksOf 0, r.2)) =
      .ok ([0, 3145728, 6291456, 10485760, 14680064, 20971520, 23068672, 25165824, 27262976, 29360128],
        [(5242880, 4194304), (20971520, 2097152)]) := by
  refine ⟨⟨rfl, rfl, rfl, by decide⟩, rfl, ⟨?_, ?_⟩, ?_⟩
  · intro k t s us r ht h; cases h
    dsimp only
    split
    · rename_i h; rw [h.2]; decide
    · exact ht
  · intro t s us r h; cases h; simp
  · decide +kernel

/-- One change, from 3 to 4 frames after 5 frames: ticks at 0 and 3, then at 6, 10, 14. -/
example : ((do
    let x1 ← twoClocks.steps false noCb [.generate 5]
    let x3 ← (x1.setPeriod 0 4194304).2.steps false noCb [.generate 12]
    return (x1.ticksOf 0, (x1.setPeriod 0 4194304).1, x3.ticksOf 0)) : C (List Int × Ret × List Int)) =
    .ok (multiples 3145728 2, .ok, multiples 3145728 2 ++ [6291456, 10485760, 14680064]) := by
  decide +kernel

/-- A context with two clocks and a channel: its periods and its kernel. -/
example : 1 < twoClocks.clocks.length ∧ 0 < twoClocks.chans.length ∧ twoClocks.getPeriod 1 = .ok 5242880 ∧
    (twoClocks.setPeriod 1 7).2.getPeriod 1 = .ok 7 ∧ (twoClocks.setPeriod 1 (-7)).1 = .invalidValue ∧
    (twoClocks.setKernel (some kernelSinc)).2.getKernel = .ok kernelSinc ∧ kernelSinc ≠ Buf.init.kernel :=
  ⟨by decide, by decide, by decide, by decide, by decide, rfl, by decide +kernel⟩

end BK
