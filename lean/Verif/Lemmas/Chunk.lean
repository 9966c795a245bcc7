import Verif.Lemmas.Mix
/-!
Rendering all units of a context: bounds, moving in time, two parts; reading channels.
-/
namespace BK

/-- A unit earlier by `a`. -/
def BUnit.earlier (a : Int) (u : BUnit) : BUnit := { u with time := u.time - a }

theorem rendered_ok {n : Nat} {e lo hi : Int} (hlo : 0 ≤ lo) (hhi : hi ≤ 4294967295) (he0 : 0 ≤ e)
    (he : e ≤ 2145386496) : ∀ (us : List BUnit),
    (∀ u ∈ us, u.toUCore.Usable n ∧ lo ≤ u.time ∧ u.time ≤ hi) →
    ∃ us' P T, rendered n e us = .ok (us', P, T) ∧ us'.length = us.length ∧
      (∀ u ∈ us', u.toUCore.Usable n ∧ e ≤ u.time ∧ (u.time ≤ hi ∨ u.time ≤ e + 2147483647)) ∧
      T = us'.map (·.time) ∧ (∀ p ∈ P, p.chan < n ∧ lo ≤ p.time ∧ p.time < e + U20 ∧ us ≠ []) ∧
      ∀ a, 0 ≤ a → a ≤ lo → a ≤ e → rendered n (e - a) (us.map (BUnit.earlier a)) =
        .ok (us'.map (BUnit.earlier a), P.map (Pulse.earlier a), T.map (· - a))
  | [], _ => ⟨[], [], [], rfl, rfl, by simp, rfl, by simp, fun a _ _ _ => rfl⟩
  | u :: us, h => by
    obtain ⟨us', P, T, h1, h2, h3, h4, h5, h6⟩ := rendered_ok hlo hhi he0 he us (fun v hv => h v (by simp [hv]))
    obtain ⟨hu, hu1, hu2⟩ := h u (by simp)
    obtain ⟨t, c', ps, g1, g2, g3, g4, g5, g6⟩ := hu.render (t0 := u.time) (e := e) (by omega) (by omega) he0 he
    refine ⟨{ toUCore := c', time := t } :: us', ps ++ P, t :: T, ?_, by simp [h2], ?_, by simp [h4], ?_, ?_⟩
    · unfold rendered; rw [g1, ok_bind, h1]; rfl
    · intro v hv
      rcases List.mem_cons.1 hv with rfl | hv
      · exact ⟨g2, g3, by dsimp only; omega⟩
      · exact h3 v hv
    · intro p hp
      rcases List.mem_append.1 hp with hp | hp
      · obtain ⟨f1, f2, f3⟩ := g5 p hp
        exact ⟨f1, by omega, f3, by simp⟩
      · obtain ⟨f1, f2, f3, -⟩ := h5 p hp
        exact ⟨f1, f2, f3, by simp⟩
    · intro a a1 a2 a3
      rw [List.map_cons]
      unfold rendered
      have := g6 a a1 (by omega) a3
      rw [show (BUnit.earlier a u).toUCore = u.toUCore from rfl, show (BUnit.earlier a u).time = u.time - a from rfl,
        this, ok_bind, h6 a a1 a2 a3, ok_bind]
      simp only [pure_eq_ok, List.map_cons, List.map_append]
      rfl

theorem rendered_split {n : Nat} {e1 e2 : Int} (he0 : 0 ≤ e1) (he : e1 ≤ e2) (he2 : e2 ≤ 2145386496) :
    ∀ (us : List BUnit), (∀ u ∈ us, u.toUCore.Usable n ∧ 0 ≤ u.time ∧ u.time ≤ 4294967295) →
    ∀ {us1 us2 : List BUnit} {P1 P2 : List Pulse} {T1 T2 : List Int}, rendered n e1 us = .ok (us1, P1, T1) →
    rendered n e2 us1 = .ok (us2, P2, T2) → ∃ P, rendered n e2 us = .ok (us2, P, T2) ∧
      (∀ i, (onChan i P).Perm (onChan i P1 ++ onChan i P2)) ∧ ∀ t ∈ T1, ∃ t' ∈ T2, t ≤ t'
  | [], _, us1, us2, P1, P2, T1, T2, h1, h2 => by
    cases h1; cases h2; exact ⟨[], rfl, fun i => List.Perm.refl _, by simp⟩
  | u :: us, h, us1, us2, P1, P2, T1, T2, h1, h2 => by
    unfold rendered at h1
    obtain ⟨⟨t, c, p⟩, a1, h1⟩ := bind_ok_iff.1 h1
    obtain ⟨⟨vs, Q, S⟩, a2, h1⟩ := bind_ok_iff.1 h1
    cases h1
    unfold rendered at h2
    obtain ⟨⟨t', c', p'⟩, b1, h2⟩ := bind_ok_iff.1 h2
    obtain ⟨⟨vs', Q', S'⟩, b2, h2⟩ := bind_ok_iff.1 h2
    cases h2
    obtain ⟨P, g1, g2, g3⟩ := rendered_split he0 he he2 us (fun v hv => h v (by simp [hv])) a2 b2
    obtain ⟨hu, hu1, hu2⟩ := h u (by simp)
    obtain ⟨ps, f1, f2⟩ := hu.split hu1 hu2 he0 he he2 a1 b1
    have f3 := hu.later hu1 hu2 he0 he he2 a1 b1
    refine ⟨ps ++ P, ?_, ?_, ?_⟩
    · unfold rendered; rw [f1, ok_bind, g1]; rfl
    · intro i
      dsimp only
      rw [onChan_append, onChan_append, onChan_append, f2]
      have := g2 i
      calc (onChan i p ++ onChan i p') ++ onChan i P
          |>.Perm ((onChan i p ++ onChan i p') ++ (onChan i Q ++ onChan i Q')) := this.append_left _
        _ |>.Perm _ := by
          rw [List.append_assoc, List.append_assoc]
          refine List.Perm.append_left _ ?_
          rw [← List.append_assoc, ← List.append_assoc]
          exact List.Perm.append_right _ List.perm_append_comm
    · intro x hx
      rcases List.mem_cons.1 hx with rfl | hx
      · exact ⟨t', by simp, f3⟩
      · obtain ⟨y, hy, hxy⟩ := g3 x hx
        exact ⟨y, by simp [hy], hxy⟩

/-! Capacity. -/

theorem capAfter_ge (T : List Int) (c : Int) : c ≤ capAfter 0 T c := by
  induction T generalizing c with
  | nil => exact Int.le_refl _
  | cons t T ih => unfold capAfter; have := ih (max c (wrapU32 (0 + t) / U20)); omega

theorem capAfter_mem {T : List Int} {t : Int} (h : t ∈ T) (c : Int) : wrapU32 t / U20 ≤ capAfter 0 T c := by
  induction T generalizing c with
  | nil => cases h
  | cons x T ih =>
    unfold capAfter
    rcases List.mem_cons.1 h with rfl | h
    · have := capAfter_ge T (max c (wrapU32 (0 + t) / U20))
      rw [Int.zero_add] at this ⊢
      omega
    · exact ih h _

theorem capAfter_le {T : List Int} {c k : Int} (hc : c ≤ k) (h : ∀ t ∈ T, wrapU32 t / U20 ≤ k) :
    capAfter 0 T c ≤ k := by
  induction T generalizing c with
  | nil => exact hc
  | cons x T ih =>
    unfold capAfter
    refine ih ?_ (fun t ht => h t (by simp [ht]))
    have := h x (by simp)
    rw [Int.zero_add]
    omega

theorem capAfter_shift {T : List Int} {m c : Int} (h : ∀ t ∈ T, m * U20 ≤ t ∧ t ≤ 4294967295) (hm : 0 ≤ m) :
    capAfter 0 (T.map (· - m * U20)) (c - m) = capAfter 0 T c - m := by
  induction T generalizing c with
  | nil => rfl
  | cons x T ih =>
    have hx := h x (by simp)
    simp only [List.map_cons, capAfter]
    rw [← ih (fun t ht => h t (by simp [ht]))]
    congr 1
    unfold wrapU32; omega

theorem capAfter_absorb {T1 T2 : List Int} (h2 : ∀ t ∈ T2, 0 ≤ t ∧ t ≤ 4294967295) (h1 : ∀ t ∈ T1, 0 ≤ t)
    (h : ∀ t ∈ T1, ∃ t' ∈ T2, t ≤ t') (c : Int) : capAfter 0 (T1 ++ T2) c = capAfter 0 T2 c := by
  rw [capAfter_append]
  refine Int.le_antisymm (capAfter_le (capAfter_le (capAfter_ge _ _) fun t ht => ?_) fun t ht => capAfter_mem ht _)
    (capAfter_le ?_ fun t ht => capAfter_mem ht _)
  · obtain ⟨t', ht', hle⟩ := h t ht
    have := capAfter_mem ht' c
    have b1 := h1 t ht
    have b2 := h2 t' ht'
    unfold wrapU32 at *
    omega
  · exact Int.le_trans (capAfter_ge T1 c) (capAfter_ge T2 _)

/-! Channels. -/

/-- The accumulator after `n` frames. -/
def accN (f : Nat → Int) : Nat → Int → Int
  | 0, a => a
  | n + 1, a => wrapI32 (wrapI32 (accN f n a - accN f n a / 512) + f n)

theorem accN_in (f : Nat → Int) {a : Int} (h : InI32 a) : ∀ n, InI32 (accN f n a)
  | 0 => h
  | _ + 1 => wrapI32_in _

theorem accN_congr {f g : Nat → Int} {a : Int} : ∀ n : Nat, (∀ j, j < n → f j = g j) → accN f n a = accN g n a
  | 0, _ => rfl
  | n + 1, h => by
    unfold accN
    rw [accN_congr n fun j hj => h j (by omega), h n (by omega)]

theorem accN_add (f : Nat → Int) (m : Nat) (a : Int) : ∀ n : Nat,
    accN (fun j => f (j + m)) n (accN f m a) = accN f (n + m) a
  | 0 => by rw [Nat.zero_add]; rfl
  | n + 1 => by
    rw [show n + 1 + m = (n + m) + 1 by omega]
    unfold accN
    rw [accN_add f m a n]

theorem readLoop_false (f : Nat → Int) (s a : Int) : ∀ (n i : Nat), i + n ≤ 4129 →
    readLoop false f s n i (accN f i a) = .ok (accN f (i + n) a,
      (List.range' i n).map fun j : Nat => ((j : Int) * s, outAmp (accN f (j + 1) a)))
  | 0, i, _ => rfl
  | n + 1, i, h => by
    unfold readLoop
    have e1 : ∀ x, arith false x = .ok (wrapI32 x) := fun x => rfl
    rw [e1, ok_bind, ldF_ok (by omega) (by omega), ok_bind, e1, ok_bind]
    have := readLoop_false f s a n (i + 1) (by omega)
    rw [show wrapI32 (wrapI32 (accN f i a - accN f i a / 512) + f (i : Int).toNat) = accN f (i + 1) a from rfl, this,
      ok_bind, List.range'_succ, List.map_cons, show i + 1 + n = i + (n + 1) by omega]
    rfl

/-- A channel between calls, and while units are run: its time is 0 and there is nothing behind its
capacity. -/
structure BOk (b : Buf) : Prop where
  wf : b.Wf
  time : b.time = 0
  tail : ∀ j : Nat, b.capacity + 33 ≤ j → b.frames j = 0

/-- The channel when `m` frames have been taken out. -/
def Buf.theta (m : Nat) (b : Buf) : Buf :=
  { b with capacity := b.capacity - m
           accum := accN b.frames m b.accum
           frames := fun j => b.frames (j + m) }

theorem BOk.theta {b : Buf} (h : BOk b) {m : Nat} (hm : m ≤ b.capacity) : BOk (b.theta m) := by
  have hc := h.wf.capacity
  refine ⟨⟨h.wf.time, ?_, accN_in _ h.wf.accum m, fun i => h.wf.frames _, h.wf.kernel⟩, h.time, ?_⟩
  · unfold Buf.theta; dsimp only; omega
  · intro j hj
    unfold Buf.theta at hj ⊢
    dsimp only at hj ⊢
    exact h.tail _ (by push_cast; omega)

theorem BOk.offset {b : Buf} (h : b.time = 0) {t : Int} (h0 : 0 ≤ t) (h1 : t ≤ 4294967295) :
    (b.offsetOf t : Int) = t / U20 ∧ (b.phaseOf t : Int) = t % U20 / 32768 := by
  unfold Buf.offsetOf Buf.phaseOf wrapU32
  rw [h]
  omega

theorem contribs_zero {b : Buf} {P : List Pulse} {j : Nat} (h : ∀ p ∈ P, b.contrib p.op j = 0) :
    b.contribs (P.map Pulse.op) j = 0 := by
  induction P with
  | nil => rfl
  | cons p P ih =>
    simp only [List.map_cons, Buf.contribs]
    rw [h p (by simp), ih fun q hq => h q (by simp [hq])]
    rfl

theorem contrib_out {b : Buf} {p : Pulse} {j : Nat} (h : (j : Int) < b.offsetOf p.time ∨ b.offsetOf p.time + 32 ≤ (j : Int)) :
    b.contrib p.op j = 0 := by
  show rowContrib _ _ _ _ _ = 0
  unfold rowContrib
  rw [if_neg (by omega)]

theorem BOk.eff {b : Buf} (h : BOk b) {P : List Pulse} {T : List Int}
    (hP : ∀ p ∈ P, 0 ≤ p.time ∧ p.time ≤ 4294967295 ∧ ∃ t ∈ T, p.time < t + U20)
    (hT : ∀ t ∈ T, 0 ≤ t ∧ t ≤ 4294967295) : BOk (b.eff P T) := by
  refine ⟨h.wf.eff P T, h.time, ?_⟩
  intro j hj
  unfold Buf.eff at hj ⊢
  dsimp only at hj ⊢
  rw [h.time] at hj
  have hge := capAfter_ge T b.capacity
  rw [h.tail j (by omega), contribs_zero]
  · decide
  · intro p hp
    obtain ⟨h1, h2, t, ht, h3⟩ := hP p hp
    have := capAfter_mem ht b.capacity
    have hb := hT t ht
    have ho := (BOk.offset h.time h1 h2).1
    refine contrib_out (.inr ?_)
    unfold wrapU32 at this
    omega

theorem theta_eff {b : Buf} (h : BOk b) {m : Nat} {P : List Pulse} {T : List Int}
    (hP : ∀ p ∈ P, (m : Int) * U20 ≤ p.time ∧ p.time ≤ 4294967295)
    (hT : ∀ t ∈ T, (m : Int) * U20 ≤ t ∧ t ≤ 4294967295) :
    (b.eff P T).theta m = (b.theta m).eff (P.map (Pulse.earlier (m * U20))) (T.map (· - m * U20)) := by
  have hcap : capAfter b.time T b.capacity - m = capAfter b.time (T.map (· - (m : Int) * U20)) (b.capacity - m) := by
    rw [h.time, capAfter_shift hT (by omega)]
  have hfr : ∀ j, wrapI32 (b.frames (j + m) + b.contribs (P.map Pulse.op) (j + m)) =
      wrapI32 (b.frames (j + m) + (b.theta m).contribs ((P.map (Pulse.earlier (m * U20))).map Pulse.op) j) := by
    intro j
    congr 2
    clear hcap
    induction P with
    | nil => rfl
    | cons p P ih =>
      simp only [List.map_cons, Buf.contribs]
      rw [ih fun q hq => hP q (by simp [hq])]
      congr 1
      obtain ⟨p1, p2⟩ := hP p (by simp)
      obtain ⟨o1, o2⟩ := BOk.offset h.time (t := p.time) (by omega) p2
      obtain ⟨o3, o4⟩ := BOk.offset (b := b.theta m) h.time (t := p.time - m * U20) (by omega) (by omega)
      show rowContrib (b.kernel.getD (b.phaseOf p.time) []) p.amp (b.offsetOf p.time) 32 (j + m) =
        rowContrib (b.kernel.getD ((b.theta m).phaseOf (p.time - m * U20)) []) p.amp
          ((b.theta m).offsetOf (p.time - m * U20)) 32 j
      have e1 : (b.theta m).phaseOf (p.time - m * U20) = b.phaseOf p.time := by omega
      have e2 : b.offsetOf p.time = (b.theta m).offsetOf (p.time - m * U20) + m := by omega
      rw [e1, e2]
      unfold rowContrib
      have e3 : (b.theta m).offsetOf (p.time - m * U20) + m ≤ j + m ∧
          j + m < (b.theta m).offsetOf (p.time - m * U20) + m + 32 ↔
          (b.theta m).offsetOf (p.time - m * U20) ≤ j ∧ j < (b.theta m).offsetOf (p.time - m * U20) + 32 := by omega
      have e4 : j + m - ((b.theta m).offsetOf (p.time - m * U20) + m) =
        j - (b.theta m).offsetOf (p.time - m * U20) := by omega
      simp only [e3, e4]
  have hacc : accN (b.eff P T).frames m b.accum = accN b.frames m b.accum := by
    refine accN_congr m fun j hj => ?_
    show wrapI32 (b.frames j + b.contribs (P.map Pulse.op) j) = _
    rw [contribs_zero, Int.add_zero, wrapI32_of_in (h.wf.frames j)]
    intro p hp
    obtain ⟨p1, p2⟩ := hP p hp
    have ho := (BOk.offset h.time (t := p.time) (by omega) p2).1
    exact contrib_out (.inl (by omega))
  show ({ time := b.time, capacity := capAfter b.time T b.capacity - m, accum := accN _ m b.accum,
          frames := fun j => wrapI32 (b.frames (j + m) + b.contribs (P.map Pulse.op) (j + m)),
          kernel := b.kernel } : Buf) = _
  rw [hcap, hacc, funext hfr]
  rfl

/-- Ending and reading takes `m` frames out. -/
theorem read_theta {b : Buf} (h : BOk b) {m : Nat} (hm : m ≤ b.capacity) {s : Int} (hs : 1 ≤ s) :
    (b.shift (m * U20)).read false m s = .ok (b.theta m,
      (List.range m).map fun j : Nat => ((j : Int) * s, outAmp (accN b.frames (j + 1) b.accum))) := by
  have hc := h.wf.capacity
  have hsh : b.shift (m * U20) = { b with time := m * U20 } := by
    unfold Buf.shift
    rw [h.time]
    dsimp only
    have : wrapU32 (0 + (m : Int) * U20) = m * U20 := by unfold wrapU32; omega
    have h2 : wrapU32 (b.capacity * U20) = b.capacity * U20 := by unfold wrapU32; omega
    rw [this, h2, if_neg (by omega), this]
  rw [hsh, read_eq (by exact hc) (by omega)]
  dsimp only
  have hmin : (min (m : Int) b.capacity).toNat = m := by omega
  rw [hmin, show max s 1 = s by omega]
  have := readLoop_false b.frames s b.accum m 0 (by omega)
  rw [show accN b.frames 0 b.accum = b.accum from rfl] at this
  rw [this, ok_bind, Nat.zero_add, List.range_eq_range']
  show Except.ok (_, _) = _
  congr 2
  unfold Buf.afterRead Buf.theta
  simp only [Buf.mk.injEq, true_and, and_true]
  refine ⟨?_, ?_⟩
  · rw [h.time]; unfold wrapU32; omega
  · funext j
    by_cases h1 : (j : Int) < b.capacity + 33 - m
    · rw [if_pos h1]
    · rw [if_neg h1, h.tail (j + m) (by push_cast; omega)]
      split
      · rfl
      · exact h.tail j (by omega)

end BK
