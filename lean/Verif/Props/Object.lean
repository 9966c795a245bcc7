import Verif.Spec.Object
/-!
C04: objects are disposed exactly once.
-/
namespace BK

/-- One more call. -/
theorem livesAfter_cons (a : Addr) (l : Option Nat) (e : OCall × ORet × Option Addr)
    (tr : List (OCall × ORet × Option Addr)) :
    livesAfter a l (e :: tr) = livesAfter a (livesAfter a l [e]) tr := rfl

/-- The header of `a` agrees with whether it exists. -/
def OMem.Agrees (m : OMem) (a : Addr) (l : Option Nat) : Prop :=
  (m.cells a).isa = l ∧ (m.cells a).init = l.isSome ∧ ((m.cells a).alloc = true → ∃ n, a = .heap n)

/-- 1 if `a` exists with class `c`. -/
def one (l : Option Nat) (c : Nat) : Nat := if l = some c then 1 else 0

/-- What one call does to the count of dispose functions called. -/
def StepOk (cls : Nat → Cls) (a : Addr) (l : Option Nat) (e : OCall × ORet × Option Addr) (m m' : OMem) :
    Prop :=
  m'.Agrees a (livesAfter a l [e]) ∧
  ∀ c, ((cls c).hook = true →
      one (startOf a e) c + one l c + hooks a c m.log =
        hooks a c m'.log + one (livesAfter a l [e]) c +
          (if l = some c ∧ (startOf a e).isSome then 1 else 0)) ∧
    ((cls c).hook = false → hooks a c m'.log = hooks a c m.log)

theorem StepOk.idle {cls : Nat → Cls} {a : Addr} {l : Option Nat} {e : OCall × ORet × Option Addr}
    {m : OMem} (h : m.Agrees a l) (hs : startOf a e = none) (he : endsOf a e = false) :
    StepOk cls a l e m m := by
  have hl : livesAfter a l [e] = l := by
    unfold livesAfter
    simp only [List.foldl_cons, List.foldl_nil, hs, he]
    rfl
  refine ⟨by rw [hl]; exact h, fun c => ⟨fun _ => ?_, fun _ => rfl⟩⟩
  rw [hl, hs]
  simp [one]
  omega

theorem StepOk.start {cls : Nat → Cls} {a : Addr} {l : Option Nat} {e : OCall × ORet × Option Addr}
    {m m' : OMem} {c : Nat} {b : Bool} (hs : startOf a e = some c) (he : endsOf a e = false)
    (hc : m'.cells a = { init := true, alloc := b, isa := some c }) (hb : b = true → ∃ n, a = .heap n)
    (hlog : m'.log = m.log) : StepOk cls a l e m m' := by
  have hl : livesAfter a l [e] = some c := by
    unfold livesAfter
    simp only [List.foldl_cons, List.foldl_nil, hs, he]
    rfl
  refine ⟨?_, fun d => ⟨fun _ => ?_, fun _ => by rw [hlog]⟩⟩
  · rw [hl]; unfold OMem.Agrees; rw [hc]; exact ⟨rfl, rfl, hb⟩
  · rw [hl, hs, hlog]
    simp [one]
    omega

theorem OMem.put_same (m : OMem) (a : Addr) (h : Header) : (m.put a h).cells a = h := by
  unfold OMem.put; simp

theorem OMem.put_other {m : OMem} {a b : Addr} {h : Header} (hab : b ≠ a) :
    (m.put a h).cells b = m.cells b := by
  unfold OMem.put; simp [hab]

theorem count_snoc_ne {α : Type} [DecidableEq α] {x y : α} (l : List α) (h : y ≠ x) :
    (l ++ [y]).count x = l.count x := by
  rw [List.count_append]; simp [List.count_singleton, h]

theorem count_snoc_eq {α : Type} [DecidableEq α] (x : α) (l : List α) :
    (l ++ [x]).count x = l.count x + 1 := by
  rw [List.count_append]; simp

/-- `Agrees` and the count of calls for `a` are not concerned by changes elsewhere. -/
theorem StepOk.away {cls : Nat → Cls} {a : Addr} {l : Option Nat} {e : OCall × ORet × Option Addr}
    {m m' : OMem} (h : m.Agrees a l) (hs : startOf a e = none) (he : endsOf a e = false)
    (hc : m'.cells a = m.cells a) (hlog : ∀ c, hooks a c m'.log = hooks a c m.log) :
    StepOk cls a l e m m' := by
  have hl : livesAfter a l [e] = l := by
    unfold livesAfter
    simp only [List.foldl_cons, List.foldl_nil, hs, he]
    rfl
  refine ⟨?_, fun c => ⟨fun _ => ?_, fun _ => hlog c⟩⟩
  · rw [hl]; unfold OMem.Agrees; rw [hc]; exact h
  · rw [hl, hs, hlog]
    simp [one]
    omega

theorem OMem.release_eq {m m' : OMem} {a : Addr} (h : m.release a = .ok m') :
    ∃ n, a = .heap n ∧ m'.cells = m.cells ∧ m'.next = m.next ∧ m'.log = m.log ++ [.free a] ∧
      m'.freed = fun k => if k = n then true else m.freed k := by
  cases a with
  | own n => cases h
  | heap n => cases h; exact ⟨n, rfl, rfl, rfl, rfl, rfl⟩

/-- What `BKDispose` does to an object that exists. -/
theorem OMem.dispose_live {cls : Nat → Cls} {m m' : OMem} {a : Addr} {c : Nat}
    (hi : (m.cells a).isa = some c) (hin : (m.cells a).init = true)
    (h : m.dispose cls (some a) = .ok m') :
    m'.cells a = {} ∧ (∀ b, b ≠ a → m'.cells b = m.cells b) ∧
    m'.log = m.log ++ (if (cls c).hook then [.hook a c] else []) ++
      (if (m.cells a).alloc then [.free a] else []) ∧
    m'.next = m.next ∧
    (if (m.cells a).alloc then ∃ n, a = .heap n ∧ m'.freed = fun k => if k = n then true else m.freed k
     else m'.freed = m.freed) := by
  unfold OMem.dispose at h
  dsimp only at h
  obtain ⟨u, -, h⟩ := bind_ok_iff.1 h
  rw [hi] at h
  dsimp only at h
  rw [hin] at h
  rw [if_neg (by decide)] at h
  cases ha : (m.cells a).alloc <;> cases hh : (cls c).hook <;> simp only [ha, hh] at h ⊢
  · cases h
    exact ⟨OMem.put_same _ _ _, fun b hb => OMem.put_other hb, by simp [OMem.put], rfl, rfl⟩
  · cases h
    refine ⟨OMem.put_same _ _ _, fun b hb => ?_, by simp [OMem.put], rfl, rfl⟩
    exact OMem.put_other (m := { m with log := _ }) hb
  · obtain ⟨n, e1, e2, e3, e4, e5⟩ := OMem.release_eq h
    refine ⟨by rw [e2]; exact OMem.put_same _ _ _, fun b hb => by rw [e2]; exact OMem.put_other hb,
      by rw [e4]; simp [OMem.put], by rw [e3]; rfl, ⟨n, e1, by rw [e5]; rfl⟩⟩
  · obtain ⟨n, e1, e2, e3, e4, e5⟩ := OMem.release_eq h
    refine ⟨by rw [e2]; exact OMem.put_same _ _ _, fun b hb => ?_,
      by rw [e4]; simp [OMem.put], by rw [e3]; rfl, ⟨n, e1, by rw [e5]; rfl⟩⟩
    rw [e2]
    exact OMem.put_other (m := { m with log := _ }) hb

/-- What `BKDispose` does to memory without object. -/
theorem OMem.dispose_idle {cls : Nat → Cls} {m m' : OMem} {a : Addr}
    (hin : (m.cells a).init = false) (h : m.dispose cls (some a) = .ok m') : m' = m := by
  unfold OMem.dispose at h
  dsimp only at h
  obtain ⟨u, -, h⟩ := bind_ok_iff.1 h
  split at h
  · cases h; rfl
  · rw [hin, if_pos rfl] at h
    cases h; rfl

theorem OMem.exec_step {cls : Nat → Cls} {m m' : OMem} {op : OCall} {r : ORet × Option Addr}
    {a : Addr} {l : Option Nat} (ha : ∀ b, ∃ l', m.Agrees b l') (hl : m.Agrees a l)
    (h : m.exec cls op = .ok (r, m')) : StepOk cls a l (op, r) m m' := by
  unfold OMem.exec at h
  cases op with
  | init b c g =>
    dsimp only at h
    obtain ⟨q, hq, h⟩ := bind_ok_iff.1 h
    cases h
    unfold OMem.objectInit at hq
    split at hq
    · rename_i b c
      split at hq
      · cases hq
        exact StepOk.idle hl rfl rfl
      · obtain ⟨u, -, hq⟩ := bind_ok_iff.1 hq
        cases hq
        by_cases hb : b = a
        · subst hb
          exact StepOk.start (c := c) (b := false) (by simp [startOf]) rfl (OMem.put_same _ _ _)
            (by intro h; cases h) rfl
        · exact StepOk.away hl (by simp [startOf, hb]) rfl (OMem.put_other (Ne.symm hb)) (fun _ => rfl)
    · cases hq
      exact StepOk.idle hl rfl rfl
  | alloc out c mem =>
    dsimp only at h
    unfold OMem.objectAlloc at h
    split at h
    · cases h; exact StepOk.idle hl rfl rfl
    · split at h
      · cases h; exact StepOk.idle hl rfl rfl
      · rename_i c
        split at h
        · cases h; exact StepOk.idle hl rfl rfl
        · split at h
          · cases h; exact StepOk.idle hl rfl rfl
          · cases h
            by_cases hb : Addr.heap m.next = a
            · subst hb
              exact StepOk.start (c := c) (b := true) (by simp [startOf]) rfl (OMem.put_same _ _ _)
                (fun _ => ⟨_, rfl⟩) rfl
            · refine StepOk.away hl (by simp [startOf, hb]) rfl ?_ (fun _ => rfl)
              exact OMem.put_other (m := { m with next := _ }) (Ne.symm hb)
  | dispose b =>
    dsimp only at h
    obtain ⟨q, hq, h⟩ := bind_ok_iff.1 h
    cases h
    cases b with
    | none =>
      cases hq
      exact StepOk.idle hl rfl rfl
    | some b =>
      obtain ⟨l', h1, h2, h3⟩ := ha b
      cases l' with
      | none =>
        cases OMem.dispose_idle (by rw [h2]; rfl) hq
        by_cases hb : b = a
        · subst hb
          have : l = none := hl.1.symm.trans h1
          subst this
          refine ⟨by simpa [livesAfter, endsOf] using hl, fun c => ⟨fun _ => ?_, fun _ => rfl⟩⟩
          simp [livesAfter, endsOf, startOf, one]
        · exact StepOk.idle hl rfl (by simp [endsOf, hb])
      | some d =>
        obtain ⟨e1, e2, e3, -, -⟩ := OMem.dispose_live h1 (by rw [h2]; rfl) hq
        by_cases hb : b = a
        · subst hb
          have : l = some d := hl.1.symm.trans h1
          subst this
          refine ⟨?_, fun c => ⟨fun hk => ?_, fun hk => ?_⟩⟩
          · unfold OMem.Agrees
            rw [e1]
            simp [livesAfter, endsOf]
          · have hcount : hooks b c m'.log = hooks b c m.log + one (some d) c := by
              unfold hooks
              rw [e3]
              by_cases hcd : d = c
              · subst hcd
                rw [hk]
                cases (m.cells b).alloc <;> simp [one, List.count_append, List.count_cons]
              · have : ∀ k : Bool, (if k then [OEvent.hook b d] else []).count (.hook b c) = 0 := by
                  intro k
                  cases k
                  · rfl
                  · simp [List.count_cons, hcd]
                rw [List.count_append, List.count_append, this]
                cases (m.cells b).alloc <;> simp [one, hcd, List.count_cons]
            rw [hcount]
            simp [livesAfter, endsOf, startOf, one]
            omega
          · unfold hooks
            rw [e3]
            have : (if (cls d).hook then [OEvent.hook b d] else []).count (.hook b c) = 0 := by
              by_cases hcd : d = c
              · subst hcd
                rw [hk]; rfl
              · cases (cls d).hook
                · rfl
                · simp [List.count_cons, hcd]
            rw [List.count_append, List.count_append, this]
            cases (m.cells b).alloc <;> simp [List.count_cons]
        · refine StepOk.away hl rfl (by simp [endsOf, hb]) (e2 a (Ne.symm hb)) (fun c => ?_)
          unfold hooks
          rw [e3]
          have : ∀ k : Bool, (if k then [OEvent.hook b d] else []).count (.hook a c) = 0 := by
            intro k
            cases k
            · rfl
            · simp [List.count_cons, hb]
          rw [List.count_append, List.count_append, this]
          cases (m.cells b).alloc <;> simp [List.count_cons]
  | attr b =>
    dsimp only at h
    obtain ⟨q, hq, h⟩ := bind_ok_iff.1 h
    cases h
    unfold OMem.attr at hq
    cases b with
    | none =>
      cases hq
      exact StepOk.idle hl rfl rfl
    | some b =>
      dsimp only at hq
      obtain ⟨u, -, hq⟩ := bind_ok_iff.1 hq
      split at hq
      · cases hq
      · split at hq
        · cases hq
          refine StepOk.away hl rfl rfl rfl (fun c => ?_)
          unfold hooks
          exact count_snoc_ne _ (by simp)
        · cases hq
          exact StepOk.idle hl rfl rfl

theorem starts_cons (a : Addr) (c : Nat) (e : OCall × ORet × Option Addr)
    (tr : List (OCall × ORet × Option Addr)) :
    starts a c (e :: tr) = one (startOf a e) c + starts a c tr := by
  unfold starts one
  rw [List.countP_cons]
  by_cases h : startOf a e = some c <;> simp [h]
  omega

theorem OMem.run_hooks {cls : Nat → Cls} : ∀ (ops : List OCall) {m m' : OMem}
    {tr : List (OCall × ORet × Option Addr)}, (∀ b, ∃ l', m.Agrees b l') →
    m.run cls ops = .ok (tr, m') → ∀ (a : Addr) (l : Option Nat), m.Agrees a l →
    m'.Agrees a (livesAfter a l tr) ∧ ∀ c,
    ((cls c).hook = true → starts a c tr + one l c + hooks a c m.log =
      hooks a c m'.log + one (livesAfter a l tr) c + remade a c l tr) ∧
    ((cls c).hook = false → hooks a c m'.log = hooks a c m.log)
  | [], m, m', tr, _, h, a, l, hl => by
    cases h
    refine ⟨hl, fun c => ⟨fun _ => ?_, fun _ => rfl⟩⟩
    simp [starts, livesAfter, remade]
    omega
  | op :: ops, m, m', tr, ha, h, a, l, hl => by
    unfold OMem.run at h
    obtain ⟨r, hr, h⟩ := bind_ok_iff.1 h
    obtain ⟨q, hq, h⟩ := bind_ok_iff.1 h
    cases h
    obtain ⟨r1, m1⟩ := r
    have st := fun b l' (hb : m.Agrees b l') => OMem.exec_step ha hb hr
    have ha1 : ∀ b, ∃ l', m1.Agrees b l' := fun b => by
      obtain ⟨l', hb⟩ := ha b
      exact ⟨_, (st b l' hb).1⟩
    obtain ⟨i1, i2⟩ := OMem.run_hooks ops ha1 hq a _ (st a l hl).1
    refine ⟨i1, fun c => ⟨fun hk => ?_, fun hk => ?_⟩⟩
    · have e1 := (i2 c).1 hk
      have e2 := ((st a l hl).2 c).1 hk
      rw [starts_cons, livesAfter_cons, remade]
      dsimp only at e1 e2 ⊢
      generalize livesAfter a l [(op, r1)] = l1 at e1 e2 ⊢
      omega
    · exact ((i2 c).2 hk).trans (((st a l hl).2 c).2 hk)

theorem OMem.start_agrees (a : Addr) : ({} : OMem).Agrees a none :=
  ⟨rfl, rfl, fun h => by cases h⟩

/-- **C04**, dispose functions: in every sequence of calls without memory error, the dispose function
of a class is called for an object exactly as often as the object has been made (successfully
initialised or allocated) with this class, except for the object that still exists and for those made
again while they existed.  It is not called at all if the class has none. -/
theorem C04_hooks {cls : Nat → Cls} {ops : List OCall} {m : OMem}
    {tr : List (OCall × ORet × Option Addr)} (h : ({} : OMem).run cls ops = .ok (tr, m))
    (a : Addr) (c : Nat) :
    ((cls c).hook = true → starts a c tr = hooks a c m.log +
      (if livesAfter a none tr = some c then 1 else 0) + remade a c none tr) ∧
    ((cls c).hook = false → hooks a c m.log = 0) := by
  obtain ⟨-, h2⟩ := OMem.run_hooks ops (fun b => ⟨none, OMem.start_agrees b⟩) h a none
    (OMem.start_agrees a)
  refine ⟨fun hk => ?_, fun hk => (h2 c).2 hk⟩
  have := (h2 c).1 hk
  simpa [one, hooks] using this

/-- State of the heap memory of `a`. -/
structure OMem.HeapOk (m : OMem) (n : Nat) : Prop where
  fresh : m.next ≤ n → frees (.heap n) m.log = 0 ∧ m.cells (.heap n) = {} ∧ m.freed n = false
  freed : m.freed n = true → frees (.heap n) m.log = 1 ∧ m.cells (.heap n) = {}
  alive : m.freed n = false → frees (.heap n) m.log = 0

/-- Only heap memory is ever freed. -/
def OMem.NoOwn (m : OMem) : Prop :=
  (∀ n, frees (.own n) m.log = 0) ∧ (∀ n, (m.cells (.own n)).alloc = false) ∧
  (∀ b, (m.cells b).init = false → m.cells b = {}) ∧ (∀ b, (m.cells b).init = true → (m.cells b).isa ≠ none)

theorem OMem.access_heap {m : OMem} {n : Nat} {u : Unit} (h : m.access (.heap n) = .ok u) :
    n < m.next ∧ m.freed n = false := by
  unfold OMem.access at h
  dsimp only at h
  split at h
  · split at h
    · cases h
    · rename_i h1 h2
      exact ⟨h1, by simpa using h2⟩
  · cases h

theorem OMem.HeapOk.put {m : OMem} {n : Nat} {b : Addr} {x : Header} (hn : m.HeapOk n)
    (hb : ∀ k, b = .heap k → k < m.next ∧ m.freed k = false) : (m.put b x).HeapOk n := by
  by_cases hbn : b = .heap n
  · obtain ⟨h1, h2⟩ := hb n hbn
    refine ⟨fun h => ?_, fun h => ?_, hn.alive⟩
    · exact absurd (show m.next ≤ n from h) (by omega)
    · rw [show (m.put b x).freed n = m.freed n from rfl, h2] at h
      cases h
  · have e : (m.put b x).cells (.heap n) = m.cells (.heap n) := OMem.put_other (Ne.symm hbn)
    exact ⟨fun h => by rw [e]; exact hn.fresh h, fun h => by rw [e]; exact hn.freed h, hn.alive⟩

theorem OMem.NoOwn.put {m : OMem} {b : Addr} {x : Header} (hm : m.NoOwn)
    (hx : x.alloc = true → ∃ k, b = .heap k) (hx' : x.init = false → x = {})
    (hx'' : x.init = true → x.isa ≠ none) : (m.put b x).NoOwn := by
  obtain ⟨h1, h2, h3, h4⟩ := hm
  refine ⟨h1, fun n => ?_, fun b' h => ?_, fun b' h => ?_⟩
  · by_cases hb : Addr.own n = b
    · subst hb
      rw [OMem.put_same]
      cases hxa : x.alloc
      · rfl
      · obtain ⟨k, hk⟩ := hx hxa
        cases hk
    · rw [OMem.put_other hb]; exact h2 n
  · by_cases hb : b' = b
    · subst hb; rw [OMem.put_same] at h ⊢; exact hx' h
    · rw [OMem.put_other hb] at h ⊢; exact h3 b' h
  · by_cases hb : b' = b
    · subst hb; rw [OMem.put_same] at h ⊢; exact hx'' h
    · rw [OMem.put_other hb] at h ⊢; exact h4 b' h

theorem OMem.HeapOk.log {m : OMem} {n : Nat} (hn : m.HeapOk n) {e : OEvent} (he : e ≠ .free (.heap n)) :
    ({ m with log := m.log ++ [e] } : OMem).HeapOk n := by
  have : frees (.heap n) (m.log ++ [e]) = frees (.heap n) m.log := count_snoc_ne _ he
  exact ⟨fun h => by dsimp only at h ⊢; rw [this]; exact hn.fresh h,
    fun h => by dsimp only at h ⊢; rw [this]; exact hn.freed h,
    fun h => by dsimp only at h ⊢; rw [this]; exact hn.alive h⟩

theorem OMem.NoOwn.log {m : OMem} (hm : m.NoOwn) {e : OEvent} (he : ∀ n, e ≠ .free (.own n)) :
    ({ m with log := m.log ++ [e] } : OMem).NoOwn := by
  obtain ⟨h1, h2⟩ := hm
  exact ⟨fun n => (count_snoc_ne _ (he n)).trans (h1 n), h2⟩

theorem OMem.exec_heap {cls : Nat → Cls} {m m' : OMem} {op : OCall} {r : ORet × Option Addr}
    (hm : m.NoOwn) (hh : ∀ n, m.HeapOk n) (h : m.exec cls op = .ok (r, m')) :
    m'.NoOwn ∧ ∀ n, m'.HeapOk n := by
  unfold OMem.exec at h
  cases op with
  | init b c g =>
    dsimp only at h
    obtain ⟨q, hq, h⟩ := bind_ok_iff.1 h
    cases h
    unfold OMem.objectInit at hq
    split at hq
    · split at hq
      · cases hq; exact ⟨hm, hh⟩
      · obtain ⟨u, hu, hq⟩ := bind_ok_iff.1 hq
        cases hq
        refine ⟨hm.put (fun h => by cases h) (fun h => by cases h) (fun _ h => by cases h),
          fun n => (hh n).put ?_⟩
        rintro k rfl
        exact OMem.access_heap hu
    · cases hq; exact ⟨hm, hh⟩
  | alloc out c mem =>
    dsimp only at h
    unfold OMem.objectAlloc at h
    split at h
    · cases h; exact ⟨hm, hh⟩
    · split at h
      · cases h; exact ⟨hm, hh⟩
      · split at h
        · cases h; exact ⟨hm, hh⟩
        · split at h
          · cases h; exact ⟨hm, hh⟩
          · cases h
            refine ⟨OMem.NoOwn.put (m := { m with next := m.next + 1 }) hm (fun _ => ⟨_, rfl⟩)
              (fun h => by cases h) (fun _ h => by cases h), fun n => ?_⟩
            have hf := (hh m.next).fresh (Nat.le_refl _)
            refine OMem.HeapOk.put (m := { m with next := m.next + 1 }) ⟨fun h => ?_, (hh n).freed,
              (hh n).alive⟩ ?_
            · exact (hh n).fresh (Nat.le_of_succ_le h)
            · intro k hk
              cases hk
              exact ⟨Nat.lt_succ_self _, hf.2.2⟩
  | dispose b =>
    dsimp only at h
    obtain ⟨q, hq, h⟩ := bind_ok_iff.1 h
    cases h
    cases b with
    | none => cases hq; exact ⟨hm, hh⟩
    | some b =>
      unfold OMem.dispose at hq
      dsimp only at hq
      obtain ⟨u, hu, hq⟩ := bind_ok_iff.1 hq
      split at hq
      · cases hq; exact ⟨hm, hh⟩
      · rename_i c hc
        split at hq
        · cases hq; exact ⟨hm, hh⟩
        · generalize hm1 : (if (cls c).hook = true then
            ({ m with log := m.log ++ [OEvent.hook b c] } : OMem) else m) = m1 at hq
          have a1 : m1.NoOwn := by
            rw [← hm1]
            split
            · exact hm.log (fun n => by simp)
            · exact hm
          have a2 : ∀ n, m1.HeapOk n := fun n => by
            rw [← hm1]
            split
            · exact (hh n).log (by simp)
            · exact hh n
          have a3 : m1.next = m.next ∧ m1.freed = m.freed := by
            rw [← hm1]
            split <;> exact ⟨rfl, rfl⟩
          have hb : ∀ k, b = .heap k → k < m1.next ∧ m1.freed k = false := by
            rintro k rfl
            rw [a3.1, a3.2]
            exact OMem.access_heap hu
          have b1 : (m1.put b {}).NoOwn :=
            a1.put (fun h => by cases h) (fun _ => rfl) (fun h => by cases h)
          have b2 : ∀ n, (m1.put b {}).HeapOk n := fun n => (a2 n).put hb
          split at hq
          · obtain ⟨n, e1, e2, e3, e4, e5⟩ := OMem.release_eq hq
            subst e1
            obtain ⟨k1, k2⟩ := hb n rfl
            refine ⟨⟨fun k => ?_, fun k => ?_, fun k => ?_, fun k => ?_⟩, fun k => ?_⟩
            · rw [e4]
              exact (count_snoc_ne _ (by simp)).trans (b1.1 k)
            · rw [e2]; exact b1.2.1 k
            · rw [e2]; exact b1.2.2.1 k
            · rw [e2]; exact b1.2.2.2 k
            · by_cases hk : k = n
              · subst hk
                refine ⟨fun h => ?_, fun h => ?_, fun h => ?_⟩
                · rw [e3] at h
                  exact absurd (show m1.next ≤ k from h) (by omega)
                · rw [e4, e2]
                  refine ⟨?_, OMem.put_same _ _ _⟩
                  have := (b2 k).alive k2
                  unfold frees at this ⊢
                  rw [count_snoc_eq, this]
                · rw [e5] at h
                  simp at h
              · have hne : OEvent.free (.heap n) ≠ .free (.heap k) := by
                  intro h
                  injection h with h
                  injection h with h
                  exact hk h.symm
                have e6 : frees (.heap k) m'.log = frees (.heap k) (m1.put (.heap n) {}).log := by
                  rw [e4]
                  exact count_snoc_ne _ hne
                have e7 : m'.freed k = (m1.put (.heap n) {}).freed k := by
                  rw [e5]
                  simp [hk]
                refine ⟨fun h => ?_, fun h => ?_, fun h => ?_⟩
                · rw [e6, e2, e7]
                  rw [e3] at h
                  exact (b2 k).fresh h
                · rw [e6, e2]
                  rw [e7] at h
                  exact (b2 k).freed h
                · rw [e6]
                  rw [e7] at h
                  exact (b2 k).alive h
          · cases hq
            exact ⟨b1, b2⟩
  | attr b =>
    dsimp only at h
    obtain ⟨q, hq, h⟩ := bind_ok_iff.1 h
    cases h
    unfold OMem.attr at hq
    cases b with
    | none => cases hq; exact ⟨hm, hh⟩
    | some b =>
      dsimp only at hq
      obtain ⟨u, -, hq⟩ := bind_ok_iff.1 hq
      split at hq
      · cases hq
      · split at hq
        · cases hq
          exact ⟨hm.log (fun n => by simp), fun n => (hh n).log (by simp)⟩
        · cases hq; exact ⟨hm, hh⟩

theorem OMem.run_heap {cls : Nat → Cls} : ∀ (ops : List OCall) {m m' : OMem}
    {tr : List (OCall × ORet × Option Addr)}, m.NoOwn → (∀ n, m.HeapOk n) →
    m.run cls ops = .ok (tr, m') → m'.NoOwn ∧ ∀ n, m'.HeapOk n
  | [], m, m', tr, hm, hh, h => by cases h; exact ⟨hm, hh⟩
  | op :: ops, m, m', tr, hm, hh, h => by
    unfold OMem.run at h
    obtain ⟨r, hr, h⟩ := bind_ok_iff.1 h
    obtain ⟨q, hq, h⟩ := bind_ok_iff.1 h
    cases h
    obtain ⟨h1, h2⟩ := OMem.exec_heap hm hh (r := r.1) (m' := r.2) hr
    exact OMem.run_heap ops h1 h2 hq

theorem OMem.start_noOwn : ({} : OMem).NoOwn :=
  ⟨fun _ => rfl, fun _ => rfl, fun _ _ => rfl, fun _ h => by cases h⟩

theorem OMem.start_heap (n : Nat) : ({} : OMem).HeapOk n :=
  ⟨fun _ => ⟨rfl, rfl, rfl⟩, fun h => (by cases h), fun _ => rfl⟩

/-- An allocated object that is never passed to `BKObjectInit`. -/
def OMem.Pure (m : OMem) (n : Nat) : Prop :=
  n < m.next → (m.freed n = true ∧ (m.cells (.heap n)).init = false) ∨
    (m.freed n = false ∧ (m.cells (.heap n)).init = true ∧ (m.cells (.heap n)).alloc = true)

/-- Is it a call of `BKObjectInit` for `a`? -/
def initOf (a : Addr) : OCall × ORet × Option Addr → Bool
  | (.init (some b) _ _, _) => decide (b = a)
  | _ => false

/-- Has the call returned `a` as newly allocated? -/
def allocOf (a : Addr) : OCall × ORet × Option Addr → Bool
  | (.alloc _ _ _, .ok, b) => decide (b = some a)
  | _ => false

theorem OMem.exec_pure {cls : Nat → Cls} {m m' : OMem} {op : OCall} {r : ORet × Option Addr} {n : Nat}
    (hm : m.NoOwn) (hh : m.HeapOk n) (hp : m.Pure n) (hi : initOf (.heap n) (op, r) = false)
    (h : m.exec cls op = .ok (r, m')) :
    m'.Pure n ∧ (n < m'.next ↔ n < m.next ∨ allocOf (.heap n) (op, r) = true) := by
  have stay : ∀ {P : Prop}, P = False → (n < m.next ↔ n < m.next ∨ P) := by
    intro P hP; rw [hP]; simp
  unfold OMem.exec at h
  cases op with
  | init b c g =>
    dsimp only at h
    obtain ⟨q, hq, h⟩ := bind_ok_iff.1 h
    cases h
    unfold OMem.objectInit at hq
    split at hq
    · rename_i b c
      split at hq
      · cases hq; exact ⟨hp, stay (by simp [allocOf])⟩
      · obtain ⟨u, hu, hq⟩ := bind_ok_iff.1 hq
        cases hq
        have hb : Addr.heap n ≠ b := by
          intro h
          subst h
          simp [initOf] at hi
        refine ⟨?_, stay (by simp [allocOf])⟩
        unfold OMem.Pure
        rw [OMem.put_other hb]
        exact hp
    · cases hq; exact ⟨hp, stay (by simp [allocOf])⟩
  | alloc out c mem =>
    dsimp only at h
    unfold OMem.objectAlloc at h
    split at h
    · cases h; exact ⟨hp, stay (by simp [allocOf])⟩
    · split at h
      · cases h; exact ⟨hp, stay (by simp [allocOf])⟩
      · rename_i c
        split at h
        · cases h; exact ⟨hp, stay (by simp [allocOf])⟩
        · split at h
          · cases h; exact ⟨hp, stay (by simp [allocOf])⟩
          · cases h
            refine ⟨fun hlt => ?_, ?_⟩
            · by_cases hn : n = m.next
              · subst hn
                rw [OMem.put_same]
                right
                exact ⟨(hh.fresh (Nat.le_refl _)).2.2, rfl, rfl⟩
              · have hne : Addr.heap n ≠ Addr.heap m.next := by
                  intro h; injection h with h; exact hn h
                have e : (({ m with next := m.next + 1 } : OMem).put (.heap m.next)
                    { init := true, alloc := true, isa := some c }).cells (.heap n) =
                    m.cells (.heap n) := OMem.put_other (m := { m with next := m.next + 1 }) hne
                rw [e]
                have : n < m.next + 1 := hlt
                exact hp (by omega)
            · show n < m.next + 1 ↔ _
              simp only [allocOf, Option.some.injEq, Addr.heap.injEq, decide_eq_true_eq]
              omega
  | dispose b =>
    dsimp only at h
    obtain ⟨q, hq, h⟩ := bind_ok_iff.1 h
    cases h
    cases b with
    | none => cases hq; exact ⟨hp, stay (by simp [allocOf])⟩
    | some b =>
      cases hin : (m.cells b).init
      · cases OMem.dispose_idle hin hq
        exact ⟨hp, stay (by simp [allocOf])⟩
      · obtain ⟨c, hc⟩ := Option.ne_none_iff_exists'.1 (hm.2.2.2 b hin)
        obtain ⟨e1, e2, e3, e4, e5⟩ := OMem.dispose_live hc hin hq
        refine ⟨?_, by rw [e4]; exact stay (by simp [allocOf])⟩
        unfold OMem.Pure
        rw [e4]
        intro hlt
        by_cases hb : b = .heap n
        · subst hb
          rcases hp hlt with ⟨h1, h2⟩ | ⟨h1, h2, h3⟩
          · rw [hin] at h2; cases h2
          · left
            rw [h3, if_pos rfl] at e5
            obtain ⟨k, hk, e5⟩ := e5
            cases hk
            rw [e5, e1]
            exact ⟨by simp, rfl⟩
        · rw [e2 _ (Ne.symm hb)]
          have : m'.freed n = m.freed n := by
            split at e5
            · obtain ⟨k, rfl, e5⟩ := e5
              rw [e5]
              have : n ≠ k := fun h => hb (by rw [h])
              simp [this]
            · rw [e5]
          rw [this]
          exact hp hlt
  | attr b =>
    dsimp only at h
    obtain ⟨q, hq, h⟩ := bind_ok_iff.1 h
    cases h
    unfold OMem.attr at hq
    cases b with
    | none => cases hq; exact ⟨hp, stay (by simp [allocOf])⟩
    | some b =>
      dsimp only at hq
      obtain ⟨u, -, hq⟩ := bind_ok_iff.1 hq
      split at hq
      · cases hq
      · split at hq
        · cases hq; exact ⟨hp, stay (by simp [allocOf])⟩
        · cases hq; exact ⟨hp, stay (by simp [allocOf])⟩

theorem OMem.run_pure {cls : Nat → Cls} {n : Nat} : ∀ (ops : List OCall) {m m' : OMem}
    {tr : List (OCall × ORet × Option Addr)}, m.NoOwn → (∀ n, m.HeapOk n) → m.Pure n →
    (∀ e ∈ tr, initOf (.heap n) e = false) → m.run cls ops = .ok (tr, m') →
    m'.Pure n ∧ (n < m'.next ↔ n < m.next ∨ ∃ e ∈ tr, allocOf (.heap n) e = true)
  | [], m, m', tr, hm, hh, hp, hi, h => by cases h; exact ⟨hp, by simp⟩
  | op :: ops, m, m', tr, hm, hh, hp, hi, h => by
    unfold OMem.run at h
    obtain ⟨r, hr, h⟩ := bind_ok_iff.1 h
    obtain ⟨q, hq, h⟩ := bind_ok_iff.1 h
    cases h
    obtain ⟨h1, h2⟩ := OMem.exec_heap hm hh (r := r.1) (m' := r.2) hr
    obtain ⟨h3, h4⟩ := OMem.exec_pure (n := n) hm (hh n) hp (hi _ List.mem_cons_self) hr
    obtain ⟨h5, h6⟩ := OMem.run_pure ops h1 h2 h3 (fun e he => hi e (List.mem_cons_of_mem _ he)) hq
    refine ⟨h5, ?_⟩
    rw [h6, h4]
    constructor
    · rintro ((h | h) | ⟨e, he, h⟩)
      · exact .inl h
      · exact .inr ⟨_, List.mem_cons_self, h⟩
      · exact .inr ⟨e, List.mem_cons_of_mem _ he, h⟩
    · rintro (h | ⟨e, he, h⟩)
      · exact .inl (.inl h)
      · rcases List.mem_cons.1 he with rfl | he
        · exact .inl (.inr h)
        · exact .inr ⟨e, he, h⟩

theorem allocatedOnly_iff {a : Addr} {tr : List (OCall × ORet × Option Addr)} :
    allocatedOnly a tr = true ↔
      (∃ e ∈ tr, allocOf a e = true) ∧ ∀ e ∈ tr, initOf a e = false := by
  unfold allocatedOnly
  rw [Bool.and_eq_true, List.any_eq_true, List.all_eq_true]
  constructor
  · rintro ⟨⟨e, he, h⟩, h'⟩
    refine ⟨⟨e, he, ?_⟩, fun e he => ?_⟩
    · unfold allocOf; exact h
    · have := h' e he
      unfold initOf
      split <;> simp_all
  · rintro ⟨⟨e, he, h⟩, h'⟩
    refine ⟨⟨e, he, ?_⟩, fun e he => ?_⟩
    · unfold allocOf at h; exact h
    · have := h' e he
      unfold initOf at this
      split <;> simp_all

/-- **C04**, memory: memory of the caller is never freed, nothing is freed twice, and an allocated
object (not passed to `BKObjectInit`) has been freed exactly if it has been disposed. -/
theorem C04_frees {cls : Nat → Cls} {ops : List OCall} {m : OMem}
    {tr : List (OCall × ORet × Option Addr)} (h : ({} : OMem).run cls ops = .ok (tr, m)) :
    (∀ n, frees (.own n) m.log = 0) ∧ (∀ a, frees a m.log ≤ 1) ∧
    (∀ a, allocatedOnly a tr = true →
      frees a m.log = if livesAfter a none tr = none then 1 else 0) := by
  obtain ⟨h1, h2⟩ := OMem.run_heap ops OMem.start_noOwn OMem.start_heap h
  have hle : ∀ a, frees a m.log ≤ 1 := by
    intro a
    cases a with
    | own n => rw [h1.1 n]; exact Nat.zero_le 1
    | heap n =>
      cases hf : m.freed n
      · rw [(h2 n).alive hf]; exact Nat.zero_le 1
      · exact Nat.le_of_eq ((h2 n).freed hf).1
  refine ⟨h1.1, hle, fun a ha => ?_⟩
  obtain ⟨⟨e, he, h3⟩, h4⟩ := allocatedOnly_iff.1 ha
  obtain ⟨ag, -⟩ := OMem.run_hooks ops (fun b => ⟨none, OMem.start_agrees b⟩) h a none
    (OMem.start_agrees a)
  cases a with
  | own n =>
    exfalso
    -- an allocation never returns memory of the caller
    have : ∀ (ops : List OCall) {m m' : OMem} {tr : List (OCall × ORet × Option Addr)},
        m.run cls ops = .ok (tr, m') → ∀ e ∈ tr, allocOf (.own n) e = false := by
      intro ops
      induction ops with
      | nil => intro m m' tr h e he; cases h; cases he
      | cons op ops ih =>
        intro m m' tr h e he
        unfold OMem.run at h
        obtain ⟨r, hr, h⟩ := bind_ok_iff.1 h
        obtain ⟨q, hq, h⟩ := bind_ok_iff.1 h
        cases h
        rcases List.mem_cons.1 he with rfl | he
        · unfold OMem.exec at hr
          cases op with
          | alloc out c mem =>
            dsimp only at hr
            unfold OMem.objectAlloc at hr
            split at hr
            · cases hr; rfl
            · split at hr
              · cases hr; rfl
              · split at hr
                · cases hr; rfl
                · split at hr
                  · cases hr; rfl
                  · cases hr; simp [allocOf]
          | _ => rfl
        · exact ih hq e he
    rw [this ops h e he] at h3
    cases h3
  | heap n =>
    obtain ⟨h5, h6⟩ := OMem.run_pure (n := n) ops OMem.start_noOwn OMem.start_heap
      (fun hlt => absurd hlt (Nat.not_lt_zero _)) h4 h
    have hlt : n < m.next := h6.2 (.inr ⟨e, he, h3⟩)
    rcases h5 hlt with ⟨k1, k2⟩ | ⟨k1, k2, -⟩
    · rw [((h2 n).freed k1).1, if_pos]
      have := ag.2.1
      rw [k2] at this
      cases hl : livesAfter (.heap n) none tr
      · rfl
      · rw [hl] at this; cases this
    · rw [(h2 n).alive k1, if_neg]
      have := ag.2.1
      rw [k2] at this
      intro hl
      rw [hl] at this; cases this

/-- **C04**, calls without effect: disposing NULL or memory of the caller without object, and calls
that are refused. -/
theorem C04_no_effect {cls : Nat → Cls} {ops : List OCall} {m : OMem}
    {tr : List (OCall × ORet × Option Addr)} (h : ({} : OMem).run cls ops = .ok (tr, m)) :
    m.dispose cls none = .ok m ∧
    (∀ n, livesAfter (.own n) none tr = none → m.dispose cls (some (.own n)) = .ok m) ∧
    (∀ op r m', m.exec cls op = .ok (r, m') → r.1 ≠ .ok → m' = m) := by
  refine ⟨rfl, fun n hl => ?_, fun op r m' he hr => ?_⟩
  · obtain ⟨⟨h1, h2, -⟩, -⟩ := OMem.run_hooks ops (fun b => ⟨none, OMem.start_agrees b⟩) h (.own n) none
      (OMem.start_agrees _)
    rw [hl] at h1 h2
    unfold OMem.dispose
    dsimp only
    rw [show m.access (.own n) = .ok () from rfl, ok_bind, h1]
    rfl
  · unfold OMem.exec at he
    cases op with
    | init b c g =>
      dsimp only at he
      obtain ⟨q, hq, he⟩ := bind_ok_iff.1 he
      cases he
      unfold OMem.objectInit at hq
      split at hq
      · split at hq
        · cases hq; rfl
        · obtain ⟨u, -, hq⟩ := bind_ok_iff.1 hq
          cases hq
          exact absurd rfl hr
      · cases hq; rfl
    | alloc out c mem =>
      dsimp only at he
      unfold OMem.objectAlloc at he
      split at he
      · cases he; rfl
      · split at he
        · cases he; rfl
        · split at he
          · cases he; rfl
          · split at he
            · cases he; rfl
            · cases he
              exact absurd rfl hr
    | dispose b =>
      dsimp only at he
      obtain ⟨q, hq, he⟩ := bind_ok_iff.1 he
      cases he
      exact absurd rfl hr
    | attr b =>
      dsimp only at he
      obtain ⟨q, hq, he⟩ := bind_ok_iff.1 he
      cases he
      unfold OMem.attr at hq
      cases b with
      | none => cases hq; rfl
      | some b =>
        dsimp only at hq
        obtain ⟨u, -, hq⟩ := bind_ok_iff.1 hq
        split at hq
        · cases hq
        · split at hq
          · cases hq; exact absurd rfl hr
          · cases hq; rfl

/-- **C04**, no memory errors: after any calls, an object in memory of the caller or one that is
allocated and not yet freed can be disposed. -/
theorem C04_disposable {cls : Nat → Cls} {ops : List OCall} {m : OMem}
    {tr : List (OCall × ORet × Option Addr)} (h : ({} : OMem).run cls ops = .ok (tr, m)) :
    (∀ n, ∃ m', m.dispose cls (some (.own n)) = .ok m') ∧
    (∀ n, allocatedOnly (.heap n) tr = true → livesAfter (.heap n) none tr ≠ none →
      ∃ m', m.dispose cls (some (.heap n)) = .ok m') := by
  obtain ⟨h1, h2⟩ := OMem.run_heap ops OMem.start_noOwn OMem.start_heap h
  refine ⟨fun n => ?_, fun n ha hl => ?_⟩
  · unfold OMem.dispose
    dsimp only
    rw [show m.access (.own n) = .ok () from rfl, ok_bind]
    split
    · exact ⟨_, rfl⟩
    · split
      · exact ⟨_, rfl⟩
      · rw [h1.2.1 n, if_neg (by decide)]
        exact ⟨_, rfl⟩
  · have hf := (C04_frees h).2.2 _ ha
    rw [if_neg hl] at hf
    obtain ⟨⟨e, he, h3⟩, h4⟩ := allocatedOnly_iff.1 ha
    obtain ⟨h5, h6⟩ := OMem.run_pure (n := n) ops OMem.start_noOwn OMem.start_heap
      (fun hlt => absurd hlt (Nat.not_lt_zero _)) h4 h
    have hlt : n < m.next := h6.2 (.inr ⟨e, he, h3⟩)
    have hfr : m.freed n = false := by
      cases hfr : m.freed n
      · rfl
      · rw [((h2 n).freed hfr).1] at hf; cases hf
    unfold OMem.dispose
    dsimp only
    rw [show m.access (.heap n) = .ok () by
      unfold OMem.access; dsimp only; rw [if_pos hlt, hfr]; rfl, ok_bind]
    split
    · exact ⟨_, rfl⟩
    · split
      · exact ⟨_, rfl⟩
      · split
        · exact ⟨_, rfl⟩
        · exact ⟨_, rfl⟩

/-- Two classes, the second without functions. -/
def twoClasses : Nat → Cls := fun c => if c = 0 then ⟨48, true, true⟩ else ⟨16, false, false⟩

/-- Observable part of a run. -/
def objectLog (ops : List OCall) : C (List OEvent) := (({} : OMem).run twoClasses ops).map (·.2.log)

example : [
    [.init (some (.own 0)) (some 0) 48, .dispose (some (.own 0)), .dispose (some (.own 0))],
    [.init (some (.own 0)) (some 0) 40, .dispose (some (.own 0)), .dispose none],
    [.alloc true (some 0) true, .alloc true (some 1) true, .alloc true (some 0) false,
     .dispose (some (.heap 1)), .dispose (some (.heap 0))]].map objectLog =
    [.ok [.hook (.own 0) 0], .ok [],
     .ok [.free (.heap 1), .hook (.heap 0) 0, .free (.heap 0)]] := by decide +kernel

example : ((({} : OMem).run twoClasses [.alloc true (some 0) true]).map fun r =>
    (allocatedOnly (.heap 0) r.1, livesAfter (.heap 0) none r.1)) = .ok (true, some 0) := by
  decide +kernel

/-- Not covered: an object made again while it exists loses its first dispose call and, if it was
allocated, its memory; disposing an allocated object twice accesses freed memory; setting attributes
of a disposed object of the caller follows a null pointer. -/
theorem C04_limits : [
    [.init (some (.own 0)) (some 0) 48, .init (some (.own 0)) (some 0) 48, .dispose (some (.own 0))],
    [.alloc true (some 0) true, .init (some (.heap 0)) (some 0) 48, .dispose (some (.heap 0))],
    [.alloc true (some 0) true, .dispose (some (.heap 0)), .dispose (some (.heap 0))],
    [.init (some (.own 0)) (some 0) 48, .dispose (some (.own 0)), .attr (some (.own 0))]].map objectLog =
    [.ok [.hook (.own 0) 0], .ok [.hook (.heap 0) 0], .error .useAfterFree, .error .null] := by
  decide +kernel

end BK
