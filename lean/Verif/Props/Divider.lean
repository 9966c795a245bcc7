import Verif.Spec.Divider
import Verif.Lemmas.Interp
import Mathlib.Data.List.Forall2
/-!
C35: dividers fire on every d-th tick.
-/
namespace BK

theorem dividerValue_small {x : Int} (h0 : 0 ≤ x) (h1 : x < 2147483648) :
    dividerValue x = max 1 x := by
  unfold dividerValue cmax wrapU32 wrapI32
  have : x % 4294967296 = x := by omega
  simp only [this]
  split <;> omega

/-- State of one divider before tick `t`: it fired last at `s` with value `v`. -/
structure DivInv (cb : DivCallback) (d0 : Int) (t : Nat) (d : Divider) : Prop where
  range : 1 ≤ d.divider ∧ d.divider < 2147483648
  cases : (t = 0 ∧ d.counter = 0 ∧ d.divider = d0) ∨
    ∃ s, s < t ∧ FiresAt cb d0 s d.divider ∧ d.counter = s + d.divider - t ∧ 0 ≤ d.counter

theorem valueAfter_range {cb : DivCallback} (hc : SmallAnswers cb) {t : Nat} {d : Int}
    (hd : 1 ≤ d ∧ d < 2147483648) :
    1 ≤ valueAfter cb t d ∧ valueAfter cb t d < 2147483648 := by
  unfold valueAfter
  cases cb with
  | none => exact hd
  | some f =>
    have := hc f rfl t d hd.1 hd.2
    dsimp only; omega

theorem firesAt_pos {cb : DivCallback} (hc : SmallAnswers cb) {d0 : Int}
    (hd : 1 ≤ d0 ∧ d0 < 2147483648) {t : Nat} {v : Int} (h : FiresAt cb d0 t v) :
    1 ≤ v ∧ v < 2147483648 := by
  induction h with
  | start => exact valueAfter_range hc hd
  | next _ ih => exact valueAfter_range hc ih

/-- No firing strictly between two successive ones. -/
theorem firesAt_gap {cb : DivCallback} (hc : SmallAnswers cb) {d0 : Int}
    (hd : 1 ≤ d0 ∧ d0 < 2147483648) :
    ∀ (n : Nat) (s : Nat) (v : Int), FiresAt cb d0 s v → ∀ (t : Nat) (w : Int), t ≤ n →
      FiresAt cb d0 t w → s ≤ n → t ≤ s ∧ (t = s → w = v) ∨ s + v ≤ t ∨ t < s := by
  intro n
  induction n with
  | zero =>
    intro s v hs t w ht htw hsn
    have h1 : s = 0 := by omega
    have h2 : t = 0 := by omega
    left
    refine ⟨by omega, fun _ => ?_⟩
    subst h1; subst h2
    have pos := fun {t v} (h : FiresAt cb d0 t v) => firesAt_pos hc hd h
    have aux : ∀ t v, FiresAt cb d0 t v → t = 0 → v = valueAfter cb 0 d0 := by
      intro t v h
      cases h with
      | start => intro _; rfl
      | next h' => intro e; have := pos h'; omega
    rw [aux 0 w htw rfl, aux 0 v hs rfl]
  | succ n ih =>
    intro s v hs t w ht htw hsn
    have pos := fun {t v} (h : FiresAt cb d0 t v) => firesAt_pos hc hd h
    by_cases hts : t < s
    · exact .inr (.inr hts)
    cases htw with
    | start =>
      left
      refine ⟨by omega, fun e => ?_⟩
      cases hs with
      | start => rfl
      | next h' => have := pos h'; omega
    | next h1 =>
      rename_i t1 v1
      have p1 := pos h1
      cases hs with
      | start =>
        -- s = 0; compare t1 with 0
        have := ih 0 _ .start t1 v1 (by omega) h1 (by omega)
        have p0 := pos (FiresAt.start (cb := cb) (d := d0))
        rcases this with ⟨e1, e2⟩ | e | e
        · have e3 : t1 = 0 := by omega
          have := e2 e3
          right; left; omega
        · right; left; omega
        · omega
      | next h2 =>
        rename_i s1 u1
        have p2 := pos h2
        have := ih s1 u1 h2 t1 v1 (by omega) h1 (by omega)
        rcases this with ⟨e1, e2⟩ | e | e
        · by_cases e3 : t1 = s1
          · have e4 := e2 e3
            subst e3; subst e4
            left; exact ⟨by omega, fun _ => rfl⟩
          · have := ih t1 v1 h1 s1 u1 (by omega) h2 (by omega)
            rcases this with ⟨e5, e6⟩ | e5 | e5
            · omega
            · right; right
              omega
            · omega
        · -- s1 + u1 ≤ t1, i.e. s ≤ t1
          by_cases e3 : (t1 : Int) = s1 + u1
          · have : t1 = s1 + u1.toNat := by omega
            have h2' : FiresAt cb d0 (s1 + u1.toNat) (valueAfter cb (s1 + u1.toNat) u1) := .next h2
            have := ih _ _ h2' t1 v1 (by omega) h1 (by omega)
            rcases this with ⟨e5, e6⟩ | e5 | e5
            · have e7 := e6 (by omega)
              right; left; omega
            · right; left; omega
            · omega
          · have h2' : FiresAt cb d0 (s1 + u1.toNat) (valueAfter cb (s1 + u1.toNat) u1) := .next h2
            have := ih _ _ h2' t1 v1 (by omega) h1 (by omega)
            rcases this with ⟨e5, e6⟩ | e5 | e5
            · omega
            · right; left; omega
            · omega
        · have := ih t1 v1 h1 s1 u1 (by omega) h2 (by omega)
          rcases this with ⟨e5, e6⟩ | e5 | e5
          · omega
          · right; right; omega
          · omega

theorem tick_inv {cb : DivCallback} (hc : SmallAnswers cb) {d0 : Int}
    (hd0 : 1 ≤ d0 ∧ d0 < 2147483648) {t : Nat} {d : Divider} (h : DivInv cb d0 t d) :
    ∃ b d', d.tick cb t = .ok (b, d') ∧ (b = true ↔ ∃ v, FiresAt cb d0 t v) ∧
      DivInv cb d0 (t + 1) d' := by
  obtain ⟨hr, hcs⟩ := h
  unfold Divider.tick
  by_cases h0 : d.counter ≤ 0
  · rw [if_pos h0]
    have hv : newDivider cb t d.divider = valueAfter cb t d.divider := by
      unfold valueAfter newDivider
      cases hcb : cb with
      | none => rfl
      | some f =>
        have e : wrapU32 d.divider = d.divider := by unfold wrapU32; omega
        have := hc f hcb t d.divider hr.1 hr.2
        dsimp only
        rw [e, dividerValue_small this.1 this.2]
    simp only [hv]
    have hvr := valueAfter_range hc hr (t := t)
    rw [i32_ok (by omega) (by omega)]
    have hf : FiresAt cb d0 t (valueAfter cb t d.divider) := by
      rcases hcs with ⟨rfl, -, e⟩ | ⟨s, hs, hf, e1, e2⟩
      · rw [e]; exact .start
      · have : t = s + d.divider.toNat := by omega
        rw [this]; exact .next hf
    refine ⟨_, _, rfl, ⟨fun _ => ⟨_, hf⟩, fun _ => rfl⟩, ⟨hvr, .inr ⟨t, by omega, hf, ?_, ?_⟩⟩⟩
    · dsimp only; omega
    · dsimp only; omega
  · rw [if_neg h0]
    rcases hcs with ⟨-, e, -⟩ | ⟨s, hs, hf, e1, e2⟩
    · omega
    rw [i32_ok (by omega) (by omega)]
    refine ⟨_, _, rfl, ⟨fun e => by simp at e, ?_⟩, ⟨hr, .inr ⟨s, by omega, hf, ?_, ?_⟩⟩⟩
    · rintro ⟨w, hw⟩
      exfalso
      rcases firesAt_gap hc hd0 t s d.divider hf t w (by omega) hw (by omega) with ⟨e, -⟩ | e | e
      all_goals omega
    · dsimp only; omega
    · dsimp only; omega

/-- One divider of a group: initial value, callback. -/
abbrev DivSpec := Int × DivCallback

/-- All dividers of a group are in step with their specifications. -/
def GroupInv (t : Nat) (specs : List DivSpec) (g : List (Divider × DivCallback)) : Prop :=
  List.Forall₂ (fun s x => x.2 = s.2 ∧ SmallAnswers s.2 ∧ (1 ≤ s.1 ∧ s.1 < 2147483648) ∧
    DivInv s.2 s.1 t x.1) specs g

theorem groupTick_inv {t : Nat} {specs : List DivSpec} {g : List (Divider × DivCallback)}
    (h : GroupInv t specs g) :
    ∃ fired g', groupTick t g = .ok (fired.any id, fired, g') ∧ GroupInv (t + 1) specs g' ∧
      List.Forall₂ (fun s b => b = true ↔ ∃ v, FiresAt s.2 s.1 t v) specs fired := by
  induction h with
  | nil => exact ⟨[], [], rfl, .nil, .nil⟩
  | @cons s x specs g hx _ ih =>
    obtain ⟨d, cb⟩ := x
    obtain ⟨h1, h2, h3, h4⟩ := hx
    dsimp only at h1 h4
    subst h1
    obtain ⟨b, d', e1, e2, e3⟩ := tick_inv h2 h3 h4
    obtain ⟨fired, g', e4, e5, e6⟩ := ih
    refine ⟨b :: fired, (d', s.2) :: g', ?_, .cons ⟨rfl, h2, h3, e3⟩ e5, .cons e2 e6⟩
    unfold groupTick
    rw [e1, ok_bind, e4]
    rfl

theorem groupRun_inv (n : Nat) : ∀ (t : Nat) {specs : List DivSpec}
    {g : List (Divider × DivCallback)}, GroupInv t specs g →
    ∃ out g', groupRun t n g = .ok (out, g') ∧ GroupInv (t + n) specs g' ∧ out.length = n ∧
      ∀ k (hk : k < out.length), (out[k]).1 = (out[k]).2.any id ∧
        List.Forall₂ (fun s b => b = true ↔ ∃ v, FiresAt s.2 s.1 (t + k) v) specs (out[k]).2 := by
  induction n with
  | zero => intro t specs g h; exact ⟨[], g, rfl, h, rfl, by simp⟩
  | succ n ih =>
    intro t specs g h
    obtain ⟨fired, g1, e1, e2, e3⟩ := groupTick_inv h
    obtain ⟨out, g2, e4, e5, e6, e7⟩ := ih (t + 1) e2
    refine ⟨(fired.any id, fired) :: out, g2, ?_, ?_, by simp [e6], ?_⟩
    · unfold groupRun
      rw [e1, ok_bind]
      dsimp only
      rw [e4]
      rfl
    · rw [show t + (n + 1) = t + 1 + n by omega]; exact e5
    · intro k hk
      cases k with
      | zero => exact ⟨rfl, e3⟩
      | succ k =>
        have := e7 k (by simpa using hk)
        rw [show t + 1 + k = t + (k + 1) by omega] at this
        exact this

/-- C35: in a group of any number of freshly initialised dividers with any callbacks, divider `k`
fires at tick `t` exactly if its own schedule says so; the schedule depends on its own value and
its own callback only.  The return value tells whether any fired. -/
theorem C35_schedule (specs : List DivSpec)
    (hs : ∀ s ∈ specs, (0 ≤ s.1 ∧ s.1 < 2147483648) ∧ SmallAnswers s.2) (n : Nat) :
    ∃ out g', groupRun 0 n (specs.map (fun s => (Divider.init s.1, s.2))) = .ok (out, g') ∧
      out.length = n ∧
      ∀ t (ht : t < out.length), (out[t]).1 = (out[t]).2.any id ∧
        List.Forall₂ (fun s b => b = true ↔ ∃ v, FiresAt s.2 (max 1 s.1) t v) specs (out[t]).2 := by
  have h0 : GroupInv 0 (specs.map (fun s => (max 1 s.1, s.2)))
      (specs.map (fun s => (Divider.init s.1, s.2))) := by
    unfold GroupInv
    rw [List.forall₂_map_left_iff, List.forall₂_map_right_iff, List.forall₂_same]
    intro s hm
    obtain ⟨⟨a1, a2⟩, a3⟩ := hs s hm
    have e := dividerValue_small a1 a2
    refine ⟨rfl, a3, by dsimp only; omega, ?_, .inl ⟨rfl, rfl, ?_⟩⟩
    · dsimp only [Divider.init]; rw [e]; omega
    · dsimp only [Divider.init]; rw [e]
  obtain ⟨out, g', e1, -, e2, e3⟩ := groupRun_inv n 0 h0
  refine ⟨out, g', e1, e2, ?_⟩
  intro t ht
  obtain ⟨h1, h2⟩ := e3 t ht
  refine ⟨h1, ?_⟩
  rw [List.forall₂_map_left_iff] at h2
  rw [Nat.zero_add] at h2
  exact h2

/-- Two dividers, the second switching between 1 and 3 by its callback. -/
example : ∃ out g', groupRun 0 8 [(Divider.init 3, none),
      (Divider.init 0, some (fun _ d => if d = 1 then 3 else 0))] = .ok (out, g') ∧
    out.map Prod.snd = [[true, true], [false, false], [false, false], [true, true], [false, true],
      [false, false], [true, false], [false, true]] :=
  ⟨_, _, rfl, by decide⟩

example : SmallAnswers (some (fun _ d => if d = 1 then 3 else 0)) := by
  intro f hf t d _ _
  cases hf
  dsimp only
  split <;> omega

theorem firesAt_multiple {cb : DivCallback} {d : Int} (hcb : ∀ t, valueAfter cb t d = d)
    (hd : 1 ≤ d) (t : Nat) : (∃ v, FiresAt cb d t v) ↔ d ∣ (t : Int) := by
  have val : ∀ t v, FiresAt cb d t v → v = d := by
    intro t v h
    induction h with
    | start => exact hcb 0
    | next _ ih => rw [ih]; exact hcb _
  constructor
  · rintro ⟨v, h⟩
    induction h with
    | start => simp
    | next h ih =>
      rename_i s w
      have := val _ _ h
      subst this
      have e : ((s + w.toNat : Nat) : Int) = s + w := by omega
      rw [e]
      exact Int.dvd_add ih (Int.dvd_refl w)
  · rintro ⟨k, hk⟩
    have hk0 : 0 ≤ k := by
      by_contra hneg
      have : d * k < 0 := Int.mul_neg_of_pos_of_neg (by omega) (by omega)
      omega
    obtain ⟨m, rfl⟩ := Int.eq_ofNat_of_zero_le hk0
    clear hk0
    induction m generalizing t with
    | zero =>
      have : t = 0 := by simpa using hk
      subst this
      exact ⟨_, .start⟩
    | succ m ih =>
      have e : d * ((m : Int) + 1) = d * m + d := by rw [Int.mul_add, Int.mul_one]
      have hm : 0 ≤ d * (m : Int) := Int.mul_nonneg (by omega) (by omega)
      have hk' : (t : Int) = d * m + d := by rw [hk, ← e]; norm_cast
      obtain ⟨v, hv⟩ := ih (t - d.toNat) (by omega)
      have hvd := val _ _ hv
      subst hvd
      have : t = t - v.toNat + v.toNat := by omega
      rw [this]
      exact ⟨_, .next hv⟩

/-- C35: without a callback, or with one that leaves the value alone, a divider with value `d`
fires on ticks 0, d, 2d, … and on no others (0 counting as 1). -/
theorem C35_every_dth (specs : List DivSpec)
    (hs : ∀ s ∈ specs, (0 ≤ s.1 ∧ s.1 < 2147483648) ∧ (∀ f, s.2 = some f → ∀ t d, f t d = d))
    (n : Nat) :
    ∃ out g', groupRun 0 n (specs.map (fun s => (Divider.init s.1, s.2))) = .ok (out, g') ∧
      out.length = n ∧
      ∀ t (ht : t < out.length),
        List.Forall₂ (fun s b => b = true ↔ max 1 s.1 ∣ (t : Int)) specs (out[t]).2 := by
  have hsm : ∀ s ∈ specs, SmallAnswers s.2 := by
    intro s hm f hf t d h1 h2
    rw [(hs s hm).2 f hf]; omega
  obtain ⟨out, g', e1, e2, e3⟩ := C35_schedule specs (fun s hm => ⟨(hs s hm).1, hsm s hm⟩) n
  refine ⟨out, g', e1, e2, ?_⟩
  intro t ht
  have h := (e3 t ht).2
  have key : ∀ s ∈ specs, ((∃ v, FiresAt s.2 (max 1 s.1) t v) ↔ max 1 s.1 ∣ (t : Int)) := by
    intro s hm
    apply firesAt_multiple
    · intro t
      unfold valueAfter
      cases hcb : s.2 with
      | none => rfl
      | some f =>
        dsimp only
        rw [(hs s hm).2 f hcb]; omega
    · omega
  generalize (out[t]).2 = bs at h ⊢
  clear e3 e1 e2 ht hsm hs
  induction h with
  | nil => exact .nil
  | cons hx _ ih =>
    exact .cons (by rw [hx]; exact key _ (by simp)) (ih (fun s hm => key s (by simp [hm])))

example : ∀ s ∈ [((4 : Int), (none : DivCallback)), (0, some (fun _ d => d))],
    (0 ≤ s.1 ∧ s.1 < 2147483648) ∧ (∀ f, s.2 = some f → ∀ t d, f t d = d) := by
  intro s hs
  rcases List.mem_cons.1 hs with rfl | hs
  · simp
  · rw [List.mem_singleton] at hs
    subst hs
    refine ⟨by simp, ?_⟩
    intro f hf t d
    cases hf
    rfl

/-- C35: after `BKDividerReset`, whatever the counters were, the dividers start their schedules
again with the values they have. -/
theorem C35_reset (g : List (Divider × DivCallback))
    (hg : ∀ x ∈ g, (1 ≤ x.1.divider ∧ x.1.divider < 2147483648) ∧ SmallAnswers x.2) (n : Nat) :
    ∃ out g', groupRun 0 n (g.map (fun x => (x.1.reset, x.2))) = .ok (out, g') ∧
      out.length = n ∧
      ∀ t (ht : t < out.length), (out[t]).1 = (out[t]).2.any id ∧
        List.Forall₂ (fun x b => b = true ↔ ∃ v, FiresAt x.2 x.1.divider t v) g (out[t]).2 := by
  have h0 : GroupInv 0 (g.map (fun x => (x.1.divider, x.2)))
      (g.map (fun x => (x.1.reset, x.2))) := by
    unfold GroupInv
    rw [List.forall₂_map_left_iff, List.forall₂_map_right_iff, List.forall₂_same]
    intro x hm
    obtain ⟨a1, a3⟩ := hg x hm
    exact ⟨rfl, a3, a1, a1, .inl ⟨rfl, rfl, rfl⟩⟩
  obtain ⟨out, g', e1, -, e2, e3⟩ := groupRun_inv n 0 h0
  refine ⟨out, g', e1, e2, ?_⟩
  intro t ht
  obtain ⟨h1, h2⟩ := e3 t ht
  refine ⟨h1, ?_⟩
  rw [List.forall₂_map_left_iff, Nat.zero_add] at h2
  exact h2

/-- A divider of 3 reset two ticks before it would fire. -/
example : ∃ r, groupRun 0 4 [(({ divider := 3, counter := 2 } : Divider).reset, none)] = .ok r ∧
    r.1.map Prod.snd = [[true], [false], [false], [true]] := ⟨_, rfl, by decide⟩

/-- C35 is violated for values from 2^31 on: 2^31 + 1, as initial value, fires on every tick
(here the first two), and 2^31 overflows. -/
theorem C35_refuted :
    (∃ r, groupRun 0 2 [(Divider.init 2147483649, none)] = .ok r ∧
      r.1 = [(true, [true]), (true, [true])]) ∧
    groupRun 0 1 [(Divider.init 2147483648, none)] = .error .overflow :=
  ⟨⟨_, rfl, by decide⟩, rfl⟩

end BK
