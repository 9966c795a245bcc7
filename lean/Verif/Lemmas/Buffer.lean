import Verif.Spec.Buffer
/-! Lemmas on the channel buffer. -/
namespace BK

/-- The result is fine (and satisfies `P`), or is an overflow in checked mode. -/
def Good {α} (chk : Bool) (r : C α) (P : α → Prop) : Prop :=
  match r with
  | .ok a => P a
  | .error e => e = .overflow ∧ chk = true

theorem Good.ok {α} {chk : Bool} {a : α} {P : α → Prop} (h : P a) : Good chk (.ok a : C α) P := h

theorem Good.bind {α β} {chk : Bool} {r : C α} {f : α → C β} {P : α → Prop} {Q : β → Prop}
    (h : Good chk r P) (hf : ∀ a, P a → Good chk (f a) Q) : Good chk (r >>= f) Q := by
  cases r with
  | ok a => exact hf a h
  | error e => exact h

theorem Good.mono {α} {chk : Bool} {r : C α} {P Q : α → Prop} (h : Good chk r P)
    (hpq : ∀ a, P a → Q a) : Good chk r Q := by
  cases r with
  | ok a => exact hpq a h
  | error e => exact h

/-- Same 32-bit residue. -/
def Cong (x y : Int) : Prop := wrapI32 x = wrapI32 y

theorem wrapI32_of_in {x : Int} (h : InI32 x) : wrapI32 x = x := by
  unfold wrapI32; unfold InI32 at h; omega

theorem wrapI32_in (x : Int) : InI32 (wrapI32 x) := by
  unfold wrapI32 InI32; omega

theorem wrapI32_wrap (x : Int) : wrapI32 (wrapI32 x) = wrapI32 x := wrapI32_of_in (wrapI32_in x)

theorem wrapI32_add_l (x y : Int) : wrapI32 (wrapI32 x + y) = wrapI32 (x + y) := by
  unfold wrapI32; omega

theorem wrapI32_add_r (x y : Int) : wrapI32 (x + wrapI32 y) = wrapI32 (x + y) := by
  unfold wrapI32; omega

theorem arith_good (chk : Bool) (x : Int) : Good chk (arith chk x) (fun y => y = wrapI32 x) := by
  unfold arith
  cases chk with
  | false => exact Good.ok rfl
  | true =>
    simp only [↓reduceIte]
    unfold i32
    split
    · exact Good.ok (wrapI32_of_in (by assumption)).symm
    · exact ⟨rfl, rfl⟩

theorem arith_ok {x : Int} (chk : Bool) (h : InI32 x) : arith chk x = .ok x := by
  unfold arith
  cases chk with
  | false => simp [wrapI32_of_in h]
  | true => simp [i32, h]

theorem arith_true_ok {x y : Int} (h : arith true x = .ok y) : InI32 x ∧ y = x := by
  unfold arith at h
  simp only [↓reduceIte] at h
  exact i32_eq_ok_iff.mp h

theorem wrapU32_in (x : Int) : InU32 (wrapU32 x) := by unfold wrapU32 InU32; omega

theorem ldF_ok {f : Nat → Int} {i : Int} (h0 : 0 ≤ i) (h1 : i < 4129) :
    ldF f i = .ok (f i.toNat) := by
  unfold ldF bufFrames; simp [h0, h1]

theorem stF_ok {f : Nat → Int} {i v : Int} (h0 : 0 ≤ i) (h1 : i < 4129) :
    stF f i v = .ok (fun j => if j = i.toNat then v else f j) := by
  unfold stF bufFrames; simp [h0, h1]

theorem rd_ok {α} {a : List α} {i : Int} (h0 : 0 ≤ i) (h1 : i.toNat < a.length) :
    rd a i = .ok (a[i.toNat]) := by
  unfold rd
  simp [h0, List.getElem?_eq_getElem h1]

/-- A kernel with the built-in shape. -/
def KernelShape (k : List (List Int)) : Prop :=
  k.length = 32 ∧ ∀ row ∈ k, row.length = 32 ∧ ∀ p ∈ row, -32767 ≤ p ∧ p ≤ 32767

instance (k) : Decidable (KernelShape k) := by unfold KernelShape; infer_instance

theorem sinc_shape : KernelShape kernelSinc := by decide +kernel
theorem harm_shape : KernelShape kernelHarm := by decide +kernel

theorem Buf.Builtin.shape {b : Buf} (h : b.Builtin) : KernelShape b.kernel := by
  rcases h with h | h <;> rw [h]
  · exact sinc_shape
  · exact harm_shape

/-- What step `i` of a pulse adds to sample `j`. -/
def stepContrib (row : List Int) (pulse : Int) (offset : Nat) (i j : Nat) : Int :=
  if j = offset + i then row.getD i 0 * pulse else 0

/-- What the first `n` steps of a pulse add to sample `j`. -/
def rowContrib (row : List Int) (pulse : Int) (offset : Nat) (n j : Nat) : Int :=
  if offset ≤ j ∧ j < offset + n then row.getD (j - offset) 0 * pulse else 0

theorem pulseStep_good {chk : Bool} {row : List Int} {pulse : Int} {offset : Nat}
    {f : Nat → Int} {i : Nat} (hrow : row.length = 32) (hi : i < 32) (ho : offset ≤ 4095)
    (hf : ∀ j, InI32 (f j)) :
    Good chk (pulseStep chk row pulse offset f i)
      (fun g => ∀ j, g j = wrapI32 (f j + stepContrib row pulse offset i j)) := by
  unfold pulseStep
  have e1 : rd row (i : Int) = .ok (row.getD i 0) := by
    rw [rd_ok (by omega) (by omega)]
    simp [List.getD_eq_getElem?_getD, List.getElem?_eq_getElem (show i < row.length by omega)]
  rw [e1]
  simp only [ok_bind]
  refine (arith_good chk _).bind ?_
  rintro prod rfl
  rw [ldF_ok (by omega) (by omega)]
  simp only [ok_bind]
  refine (arith_good chk _).bind ?_
  rintro v rfl
  rw [stF_ok (by omega) (by omega)]
  refine Good.ok ?_
  intro j
  have e : ((offset : Int) + (i : Int)).toNat = offset + i := by omega
  simp only [e]
  unfold stepContrib
  split
  · next h => rw [wrapI32_add_r, h]
  · rw [Int.add_zero, wrapI32_of_in (hf j)]

theorem foldlM_range_good {chk : Bool} {row : List Int} {pulse : Int} {offset : Nat}
    {f : Nat → Int} (hrow : row.length = 32) (ho : offset ≤ 4095) (hf : ∀ j, InI32 (f j))
    (n : Nat) (hn : n ≤ 32) :
    Good chk ((List.range n).foldlM (pulseStep chk row pulse offset) f)
      (fun g => ∀ j, g j = wrapI32 (f j + rowContrib row pulse offset n j)) := by
  induction n with
  | zero =>
    refine Good.ok ?_
    intro j
    have : rowContrib row pulse offset 0 j = 0 := by
      unfold rowContrib; rw [if_neg (by omega)]
    rw [this, Int.add_zero, wrapI32_of_in (hf j)]
  | succ n ih =>
    rw [List.range_succ, List.foldlM_append]
    refine (ih (by omega)).bind ?_
    intro g hg
    have hg' : ∀ j, InI32 (g j) := by intro j; rw [hg]; exact wrapI32_in _
    simp only [List.foldlM_cons, List.foldlM_nil]
    refine (pulseStep_good (chk := chk) (pulse := pulse) (i := n) hrow (by omega) ho hg').bind ?_
    intro h hh
    refine Good.ok ?_
    intro j
    rw [hh, hg, wrapI32_add_l]
    congr 1
    unfold stepContrib rowContrib
    by_cases hj : j = offset + n
    · subst hj
      simp
    · simp only [hj, ↓reduceIte, Int.add_zero]
      by_cases h1 : offset ≤ j ∧ j < offset + n
      · rw [if_pos h1, if_pos (by omega)]
      · rw [if_neg h1, if_neg (by omega)]

/-- Position and sub-sample phase of a time argument. -/
def Buf.offsetOf (b : Buf) (t : Int) : Nat := (wrapU32 (b.time + t) / U20).toNat
def Buf.phaseOf (b : Buf) (t : Int) : Nat := (wrapU32 (b.time + t) % U20 / 32768).toNat

/-- What a mixing call adds to sample `j`. -/
def Buf.contrib (b : Buf) : BufOp → Nat → Int
  | .pulse t a, j => rowContrib (b.kernel.getD (b.phaseOf t) []) a (b.offsetOf t) 32 j
  | .frame t a, j => if j = b.offsetOf t then 32767 * a else 0
  | _, _ => 0

theorem offsetOf_le (b : Buf) (t : Int) : b.offsetOf t ≤ 4095 := by
  unfold Buf.offsetOf wrapU32; omega
theorem phaseOf_lt (b : Buf) (t : Int) : b.phaseOf t < 32 := by
  unfold Buf.phaseOf wrapU32; omega

theorem rowAt_mem {b : Buf} (h : KernelShape b.kernel) (t : Int) :
    b.kernel.getD (b.phaseOf t) [] ∈ b.kernel := by
  have := phaseOf_lt b t
  have hl : b.phaseOf t < b.kernel.length := by rw [h.1]; exact this
  simp [List.getD_eq_getElem?_getD, List.getElem?_eq_getElem hl]

theorem addPulse_good {chk : Bool} {b : Buf} (hk : KernelShape b.kernel)
    (hf : ∀ j, InI32 (b.frames j)) (t a : Int) :
    Good chk (b.addPulse chk t a)
      (fun b' => b' = { b with frames := fun j => wrapI32 (b.frames j + b.contrib (.pulse t a) j) }) := by
  unfold Buf.addPulse
  have hp := phaseOf_lt b t
  have ho := offsetOf_le b t
  have hrow := (hk.2 _ (rowAt_mem hk t)).1
  have e0 : (b.offsetOf t : Int) = wrapU32 (b.time + t) / U20 := by
    unfold Buf.offsetOf wrapU32; omega
  have e1 : rd b.kernel (wrapU32 (b.time + t) % U20 / 32768) =
      .ok (b.kernel.getD (b.phaseOf t) []) := by
    have hl : b.phaseOf t < b.kernel.length := by rw [hk.1]; exact hp
    rw [rd_ok (by unfold wrapU32; omega) hl]
    simp only [List.getD_eq_getElem?_getD, List.getElem?_eq_getElem hl, Option.getD_some]
    rfl
  simp only [e1, ok_bind, ← e0]
  refine (foldlM_range_good (chk := chk) (pulse := a) hrow ho hf 32 (by omega)).bind ?_
  intro g hg
  refine Good.ok ?_
  have : g = fun j => wrapI32 (b.frames j + b.contrib (.pulse t a) j) := funext hg
  rw [this]

theorem addFrame_good {chk : Bool} {b : Buf} (hf : ∀ j, InI32 (b.frames j)) (t a : Int) :
    Good chk (b.addFrame chk t a)
      (fun b' => b' = { b with frames := fun j => wrapI32 (b.frames j + b.contrib (.frame t a) j) }) := by
  unfold Buf.addFrame
  have ho := offsetOf_le b t
  have e0 : (b.offsetOf t : Int) = wrapU32 (b.time + t) / U20 := by
    unfold Buf.offsetOf wrapU32; omega
  simp only [← e0]
  refine (arith_good chk _).bind ?_
  rintro prod rfl
  rw [ldF_ok (by omega) (by omega)]
  simp only [ok_bind]
  refine (arith_good chk _).bind ?_
  rintro v rfl
  rw [stF_ok (by omega) (by omega)]
  refine Good.ok ?_
  have : (fun j => if j = ((b.offsetOf t : Int)).toNat then
      wrapI32 (b.frames ((b.offsetOf t : Int)).toNat + wrapI32 (32767 * a)) else b.frames j) =
      fun j => wrapI32 (b.frames j + b.contrib (.frame t a) j) := by
    funext j
    simp only [Int.toNat_natCast, Buf.contrib]
    split
    · next h => rw [wrapI32_add_r, h]
    · rw [Int.add_zero, wrapI32_of_in (hf j)]
  rw [this]

/-- Both mixing calls. -/
theorem mix_good {chk : Bool} {b : Buf} (hk : KernelShape b.kernel)
    (hf : ∀ j, InI32 (b.frames j)) {op : BufOp} (hm : op.isMix = true) :
    Good chk (b.step chk op)
      (fun r => r = ({ b with frames := fun j => wrapI32 (b.frames j + b.contrib op j) }, [])) := by
  cases op with
  | pulse t a =>
    refine (addPulse_good (chk := chk) hk hf t a).bind ?_
    rintro _ rfl; exact Good.ok rfl
  | frame t a =>
    refine (addFrame_good (chk := chk) hf t a).bind ?_
    rintro _ rfl; exact Good.ok rfl
  | _ => cases hm

theorem contrib_congr {b b' : Buf} (ht : b.time = b'.time) (hk : b.kernel = b'.kernel)
    (op : BufOp) (j : Nat) : b.contrib op j = b'.contrib op j := by
  have e1 : ∀ t, b.offsetOf t = b'.offsetOf t := by
    intro t; unfold Buf.offsetOf; rw [ht]
  have e2 : ∀ t, b.phaseOf t = b'.phaseOf t := by
    intro t; unfold Buf.phaseOf; rw [ht]
  cases op with
  | pulse t a => simp only [Buf.contrib]; rw [e1, e2, hk]
  | frame t a => simp only [Buf.contrib]; rw [e1]
  | _ => rfl

theorem outAmp_in (a : Int) : InI16 (outAmp a) := by
  unfold outAmp; simp only; split <;> (unfold wrapI16 InI16; omega)

theorem readLoop_good {chk : Bool} {f : Nat → Int} {stride : Int} (n : Nat) :
    ∀ (i : Nat) (acc : Int), i + n ≤ 4129 → InI32 acc →
    Good chk (readLoop chk f stride n i acc)
      (fun r => InI32 r.1 ∧ r.2.length = n ∧
        (∀ k (h : k < r.2.length), (r.2[k]).1 = ((i + k : Nat) : Int) * stride) ∧
        ∀ w ∈ r.2, InI16 w.2) := by
  induction n with
  | zero => intro i acc _ h; exact Good.ok ⟨h, by simp⟩
  | succ n ih =>
    intro i acc h hacc
    unfold readLoop
    refine (arith_good chk _).bind ?_
    rintro a rfl
    rw [ldF_ok (by omega) (by omega)]
    simp only [ok_bind]
    refine (arith_good chk _).bind ?_
    rintro v rfl
    refine (ih (i + 1) _ (by omega) (wrapI32_in _)).bind ?_
    rintro ⟨a', out⟩ ⟨h1, h2, h3, h4⟩
    refine Good.ok ⟨h1, by simpa using h2, ?_, ?_⟩
    · intro k hk
      cases k with
      | zero => simp
      | succ k =>
        simp only [List.getElem_cons_succ]
        rw [h3]
        congr 2; omega
    · intro w hw
      simp only [List.mem_cons] at hw
      rcases hw with rfl | hw
      · exact outAmp_in _
      · exact h4 w hw

theorem cmin_nonneg {a b : Int} (ha : 0 ≤ a) (hb : 0 ≤ b) :
    0 ≤ cmin a b ∧ cmin a b ≤ a ∧ cmin a b ≤ b := by
  unfold cmin; split <;> omega

theorem read_good {chk : Bool} {b : Buf} (h : b.Wf) {n s : Int} (hn : InU32 n) :
    Good chk (b.read chk n s)
      (fun r => r.1.Wf ∧ r.2.length = (min n b.capacity).toNat ∧
        (∀ k (h : k < r.2.length), (r.2[k]).1 = (k : Int) * max s 1) ∧
        ∀ w ∈ r.2, InI16 w.2) := by
  unfold Buf.read
  have hc := h.capacity
  have hm : cmin n b.capacity = min n b.capacity := by unfold cmin; split <;> omega
  have hx : cmax s 1 = max s 1 := by unfold cmax; split <;> omega
  simp only [hm, hx]
  unfold InU32 at hn
  have hsz : 0 ≤ min n b.capacity ∧ min n b.capacity ≤ b.capacity := by omega
  generalize min n b.capacity = sz at *
  refine (readLoop_good (chk := chk) (f := b.frames) (stride := max s 1) sz.toNat 0 b.accum
    (by omega) h.accum).bind ?_
  rintro ⟨a, out⟩ ⟨h1, h2, h3, h4⟩
  have e : wrapU32 (b.capacity + 33) = b.capacity + 33 := by unfold wrapU32; omega
  simp only [e]
  rw [if_pos (by unfold bufFrames; omega)]
  refine Good.ok ⟨⟨wrapU32_in _, ?_, h1, ?_, h.kernel⟩, h2, ?_, h4⟩
  · simp only; omega
  · intro i
    simp only
    split
    · exact h.frames _
    · split
      · simp [InI32]
      · exact h.frames _
  · intro k hk
    rw [h3]; simp

theorem endAt_wf {b : Buf} (h : b.Wf) (t : Int) : (b.endAt t).Wf := by
  unfold Buf.endAt
  simp only
  split
  · refine ⟨h.time, ?_, h.accum, h.frames, h.kernel⟩
    simp only; have := h.capacity
    constructor
    · omega
    · unfold wrapU32; omega
  · exact h

theorem shift_wf {b : Buf} (h : b.Wf) (t : Int) : (b.shift t).Wf := by
  unfold Buf.shift
  exact ⟨wrapU32_in _, h.capacity, h.accum, h.frames, h.kernel⟩

theorem clear_wf {b : Buf} (h : b.Wf) : b.clear.Wf := by
  unfold Buf.clear
  exact ⟨by simp [InU32], by simp, by simp [InI32], by simp [InI32], h.kernel⟩

theorem init_wf : Buf.init.Wf :=
  ⟨by simp [InU32, Buf.init], by simp [Buf.init], by simp [InI32, Buf.init],
   by simp [InI32, Buf.init], .inr rfl⟩

/-- In checked mode a successful pulse step adds exactly its contribution. -/
theorem pulseStep_exact {row : List Int} {pulse : Int} {offset : Nat}
    {f g : Nat → Int} {i : Nat} (hrow : row.length = 32) (hi : i < 32) (ho : offset ≤ 4095)
    (h : pulseStep true row pulse offset f i = .ok g) :
    ∀ j, g j = f j + stepContrib row pulse offset i j := by
  unfold pulseStep at h
  have e1 : rd row (i : Int) = .ok (row.getD i 0) := by
    rw [rd_ok (by omega) (by omega)]
    simp [List.getD_eq_getElem?_getD, List.getElem?_eq_getElem (show i < row.length by omega)]
  rw [e1] at h
  simp only [ok_bind] at h
  obtain ⟨prod, h1, h⟩ := bind_ok_iff.mp h
  have h1 := (arith_true_ok h1).2
  subst h1
  rw [ldF_ok (by omega) (by omega)] at h
  simp only [ok_bind] at h
  obtain ⟨v, h2, h⟩ := bind_ok_iff.mp h
  have h2 := (arith_true_ok h2).2
  subst h2
  rw [stF_ok (by omega) (by omega)] at h
  cases h
  intro j
  have e : ((offset : Int) + (i : Int)).toNat = offset + i := by omega
  simp only [e]
  unfold stepContrib
  split
  · next h => rw [h]
  · rw [Int.add_zero]

theorem foldlM_range_exact {row : List Int} {pulse : Int} {offset : Nat}
    {f : Nat → Int} (hrow : row.length = 32) (ho : offset ≤ 4095) (n : Nat) (hn : n ≤ 32) :
    ∀ g, (List.range n).foldlM (pulseStep true row pulse offset) f = .ok g →
      ∀ j, g j = f j + rowContrib row pulse offset n j := by
  induction n with
  | zero =>
    intro g h
    cases h
    intro j
    have : rowContrib row pulse offset 0 j = 0 := by
      unfold rowContrib; rw [if_neg (by omega)]
    rw [this, Int.add_zero]
  | succ n ih =>
    intro g h j
    rw [List.range_succ, List.foldlM_append] at h
    obtain ⟨g', h1, h2⟩ := bind_ok_iff.mp h
    simp only [List.foldlM_cons, List.foldlM_nil] at h2
    obtain ⟨g'', h2, h3⟩ := bind_ok_iff.mp h2
    cases h3
    rw [pulseStep_exact hrow (by omega) ho h2, ih (by omega) g' h1]
    unfold stepContrib rowContrib
    by_cases hj : j = offset + n
    · subst hj
      simp
    · simp only [hj, ↓reduceIte, Int.add_zero]
      by_cases h1 : offset ≤ j ∧ j < offset + n
      · rw [if_pos h1, if_pos (by omega)]
      · rw [if_neg h1, if_neg (by omega)]

/-- In checked mode a successful mixing call adds exactly its contribution. -/
theorem mix_exact {b : Buf} (hk : KernelShape b.kernel) {op : BufOp} (hm : op.isMix = true)
    {r : Buf × List (Int × Int)} (h : b.step true op = .ok r) :
    r = ({ b with frames := fun j => b.frames j + b.contrib op j }, []) := by
  cases op with
  | pulse t a =>
    unfold Buf.step at h
    simp only at h
    obtain ⟨b', h1, h2⟩ := bind_ok_iff.mp h
    cases h2
    unfold Buf.addPulse at h1
    have hp := phaseOf_lt b t
    have ho := offsetOf_le b t
    have hrow := (hk.2 _ (rowAt_mem hk t)).1
    have e0 : (b.offsetOf t : Int) = wrapU32 (b.time + t) / U20 := by
      unfold Buf.offsetOf wrapU32; omega
    have e1 : rd b.kernel (wrapU32 (b.time + t) % U20 / 32768) =
        .ok (b.kernel.getD (b.phaseOf t) []) := by
      have hl : b.phaseOf t < b.kernel.length := by rw [hk.1]; exact hp
      rw [rd_ok (by unfold wrapU32; omega) hl]
      simp only [List.getD_eq_getElem?_getD, List.getElem?_eq_getElem hl, Option.getD_some]
      rfl
    simp only [e1, ok_bind, ← e0] at h1
    obtain ⟨g, h3, h4⟩ := bind_ok_iff.mp h1
    cases h4
    have : g = fun j => b.frames j + b.contrib (.pulse t a) j :=
      funext (foldlM_range_exact hrow ho 32 (by omega) g h3)
    rw [this]
  | frame t a =>
    unfold Buf.step at h
    simp only at h
    obtain ⟨b', h1, h2⟩ := bind_ok_iff.mp h
    cases h2
    unfold Buf.addFrame at h1
    have ho := offsetOf_le b t
    have e0 : (b.offsetOf t : Int) = wrapU32 (b.time + t) / U20 := by
      unfold Buf.offsetOf wrapU32; omega
    simp only [← e0] at h1
    obtain ⟨prod, h2, h1⟩ := bind_ok_iff.mp h1
    have h2 := (arith_true_ok h2).2
    subst h2
    rw [ldF_ok (by omega) (by omega)] at h1
    simp only [ok_bind] at h1
    obtain ⟨v, h2, h1⟩ := bind_ok_iff.mp h1
    have h2 := (arith_true_ok h2).2
    subst h2
    rw [stF_ok (by omega) (by omega)] at h1
    simp only [ok_bind] at h1
    cases h1
    have : (fun j => if j = ((b.offsetOf t : Int)).toNat then
        b.frames ((b.offsetOf t : Int)).toNat + 32767 * a else b.frames j) =
        fun j => b.frames j + b.contrib (.frame t a) j := by
      funext j
      simp only [Int.toNat_natCast, Buf.contrib]
      split
      · next h => rw [h]
      · rw [Int.add_zero]
    rw [this]
  | _ => cases hm

/-- Sum of the contributions of a list of mixing calls. -/
def Buf.contribs (b : Buf) : List BufOp → Nat → Int
  | [], _ => 0
  | op :: ops, j => b.contrib op j + b.contribs ops j

theorem contribs_congr {b b' : Buf} (ht : b.time = b'.time) (hk : b.kernel = b'.kernel)
    (ops : List BufOp) (j : Nat) : b.contribs ops j = b'.contribs ops j := by
  induction ops with
  | nil => rfl
  | cons op ops ih => unfold Buf.contribs; rw [contrib_congr ht hk, ih]

theorem contribs_perm (b : Buf) {ops ops' : List BufOp} (h : ops.Perm ops') (j : Nat) :
    b.contribs ops j = b.contribs ops' j := by
  induction h with
  | nil => rfl
  | cons x _ ih => unfold Buf.contribs; rw [ih]
  | swap x y l => simp only [Buf.contribs]; omega
  | trans _ _ ih1 ih2 => rw [ih1, ih2]

theorem mixRun_good {chk : Bool} (ops : List BufOp) :
    ∀ {b : Buf}, KernelShape b.kernel → (∀ j, InI32 (b.frames j)) →
    (∀ op ∈ ops, op.isMix = true) →
    Good chk (b.run chk ops)
      (fun r => r = ({ b with frames := fun j => wrapI32 (b.frames j + b.contribs ops j) },
        ops.map fun _ => [])) := by
  induction ops with
  | nil =>
    intro b _ hf _
    refine Good.ok ?_
    have : (fun j => wrapI32 (b.frames j + b.contribs [] j)) = b.frames := by
      funext j; simp only [Buf.contribs, Int.add_zero]; exact wrapI32_of_in (hf j)
    rw [this]; rfl
  | cons op ops ih =>
    intro b hk hf hm
    unfold Buf.run
    refine (mix_good (chk := chk) hk hf (hm op (by simp))).bind ?_
    intro r hr
    subst hr
    refine (ih (b := { b with frames := fun j => wrapI32 (b.frames j + b.contrib op j) }) hk
      (fun j => wrapI32_in _) (fun o ho => hm o (by simp [ho]))).bind ?_
    intro r hr
    subst hr
    refine Good.ok ?_
    simp only [List.map_cons, Prod.mk.injEq, and_true]
    have : (fun j => wrapI32 (wrapI32 (b.frames j + b.contrib op j) +
        Buf.contribs { b with frames := fun j => wrapI32 (b.frames j + b.contrib op j) } ops j)) =
        fun j => wrapI32 (b.frames j + b.contribs (op :: ops) j) := by
      funext j
      rw [wrapI32_add_l]
      rw [contribs_congr (b := { b with frames := fun j => wrapI32 (b.frames j + b.contrib op j) })
        (b' := b) rfl rfl]
      simp only [Buf.contribs]
      congr 1; omega
    rw [this]

theorem mixRun_exact (ops : List BufOp) :
    ∀ {b : Buf}, KernelShape b.kernel → (∀ op ∈ ops, op.isMix = true) →
    ∀ {r}, b.run true ops = .ok r →
      r.1 = { b with frames := fun j => b.frames j + b.contribs ops j } := by
  induction ops with
  | nil =>
    intro b _ _ r h
    cases h
    have : (fun j => b.frames j + b.contribs [] j) = b.frames := by
      funext j; simp only [Buf.contribs, Int.add_zero]
    rw [this]
  | cons op ops ih =>
    intro b hk hm r h
    unfold Buf.run at h
    obtain ⟨r1, h1, h⟩ := bind_ok_iff.mp h
    have h1 := mix_exact hk (hm op (by simp)) h1
    subst h1
    obtain ⟨r2, h2, h⟩ := bind_ok_iff.mp h
    have h2 := ih (b := { b with frames := fun j => b.frames j + b.contrib op j }) hk
      (fun o ho => hm o (by simp [ho])) h2
    cases h
    rw [h2]
    have : (fun j => b.frames j + b.contrib op j +
        Buf.contribs { b with frames := fun j => b.frames j + b.contrib op j } ops j) =
        fun j => b.frames j + b.contribs (op :: ops) j := by
      funext j
      rw [contribs_congr (b := { b with frames := fun j => b.frames j + b.contrib op j })
        (b' := b) rfl rfl]
      simp only [Buf.contribs]; omega
    simp only [this]

theorem sumTo_add (f g : Nat → Int) (n : Nat) :
    sumTo (fun j => f j + g j) n = sumTo f n + sumTo g n := by
  induction n with
  | zero => rfl
  | succ n ih => simp only [sumTo, ih]; omega

theorem sumTo_congr {f g : Nat → Int} {n : Nat} (h : ∀ j, j < n → f j = g j) :
    sumTo f n = sumTo g n := by
  induction n with
  | zero => rfl
  | succ n ih => simp only [sumTo]; rw [ih (fun j hj => h j (by omega)), h n (by omega)]

theorem sumTo_zero (n : Nat) : sumTo (fun _ => 0) n = 0 := by
  induction n with
  | zero => rfl
  | succ n ih => simp only [sumTo, ih]; omega

theorem sumTo_single (k : Nat) (v : Int) (n : Nat) :
    sumTo (fun j => if j = k then v else 0) n = if k < n then v else 0 := by
  induction n with
  | zero => simp [sumTo]
  | succ n ih =>
    simp only [sumTo, ih]
    by_cases h : k = n
    · subst h; simp
    · by_cases h2 : k < n
      · rw [if_pos h2, if_neg (by omega), if_pos (by omega)]; omega
      · rw [if_neg h2, if_neg (by omega), if_neg (by omega)]; omega

theorem sumTo_rowContrib (row : List Int) (a : Int) (offset : Nat) (n m : Nat)
    (h : offset + n ≤ m) :
    sumTo (rowContrib row a offset n) m = sumTo (fun i => row.getD i 0) n * a := by
  induction n with
  | zero =>
    have : rowContrib row a offset 0 = fun _ => 0 := by
      funext j; unfold rowContrib; rw [if_neg (by omega)]
    rw [this, sumTo_zero]; simp [sumTo]
  | succ n ih =>
    have : rowContrib row a offset (n + 1) = fun j => rowContrib row a offset n j +
        (if j = offset + n then row.getD n 0 * a else 0) := by
      funext j
      unfold rowContrib
      by_cases hj : j = offset + n
      · subst hj; simp
      · simp only [hj, ↓reduceIte, Int.add_zero]
        by_cases h1 : offset ≤ j ∧ j < offset + n
        · rw [if_pos h1, if_pos (by omega)]
        · rw [if_neg h1, if_neg (by omega)]
    rw [this, sumTo_add, ih (by omega), sumTo_single, if_pos (by omega)]
    simp only [sumTo, Int.add_mul]

theorem sinc_rows : ∀ row ∈ kernelSinc, sumTo (fun i => row.getD i 0) 32 = 32767 := by
  decide +kernel
theorem harm_rows : ∀ row ∈ kernelHarm, sumTo (fun i => row.getD i 0) 32 = 32767 := by
  decide +kernel

theorem sum_contrib {b : Buf} (h : b.Builtin) (op : BufOp) (hm : op.isMix = true) :
    sumTo (b.contrib op) 4129 = 32767 * op.amp := by
  cases op with
  | pulse t a =>
    have ho := offsetOf_le b t
    have hr := rowAt_mem h.shape t
    have : b.contrib (.pulse t a) = rowContrib (b.kernel.getD (b.phaseOf t) []) a (b.offsetOf t) 32 := by
      funext j; rfl
    rw [this, sumTo_rowContrib _ _ _ _ _ (by omega)]
    rcases h with h | h
    · rw [sinc_rows _ (h ▸ hr)]; rfl
    · rw [harm_rows _ (h ▸ hr)]; rfl
  | frame t a =>
    have ho := offsetOf_le b t
    have : b.contrib (.frame t a) = fun j => if j = b.offsetOf t then 32767 * a else 0 := by
      funext j; rfl
    rw [this, sumTo_single, if_pos (by omega)]; rfl
  | _ => cases hm

theorem sum_contribs {b : Buf} (h : b.Builtin) (ops : List BufOp)
    (hm : ∀ op ∈ ops, op.isMix = true) :
    sumTo (b.contribs ops) 4129 = 32767 * ampSum ops := by
  induction ops with
  | nil =>
    have : b.contribs [] = fun _ => 0 := by funext j; rfl
    rw [this, sumTo_zero]; rfl
  | cons op ops ih =>
    have : b.contribs (op :: ops) = fun j => b.contrib op j + b.contribs ops j := by funext j; rfl
    rw [this, sumTo_add, sum_contrib h op (hm op (by simp)), ih (fun o ho => hm o (by simp [ho]))]
    simp only [ampSum]; omega

end BK
