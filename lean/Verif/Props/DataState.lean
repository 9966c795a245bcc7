import Verif.Lemmas.DataState
/-! C63: which units use a data object, and notification of them. -/
namespace BK

theorem Links.SRepr.step {h : Links} {A : Lists} (hr : h.SRepr A) (fuel : Nat) (log : List Nat) (op : BindOp)
    (hl : op.Legal A) (hf : ∀ d, (A d).length + 1 ≤ fuel) :
    ∃ h', h.bindStep fuel log op = .ok (h', log ++ A.told op) ∧ h'.SRepr (A.bindStep op) := by
  cases op with
  | bind s d =>
    obtain ⟨h', e, r⟩ := hr.bind fuel s d (fun c => Nat.le_of_succ_le (hf c))
    refine ⟨h', ?_, r⟩
    unfold Links.bindStep Lists.told
    dsimp only
    rw [e, ok_bind, List.append_nil]
    rfl
  | changed d fails =>
    obtain ⟨h', a, e, r, p⟩ := hr.reset (fun log s => .ok (fails s, log ++ [s])) false d fuel fails
      (fun pre l => l = log ++ pre) log
      (fun pre s a _ hp => ⟨fails s, a ++ [s], rfl, Bool.or_false _, by rw [hp, List.append_assoc]⟩)
      (dropOk_legal fails _ hl) (hf d) (by rw [List.append_nil])
    refine ⟨h', ?_, r⟩
    rw [p] at e
    exact e
  | gone d =>
    obtain ⟨h', a, e, r, p⟩ := hr.reset (fun log s => .ok (false, log ++ [s])) true d fuel (fun _ => true)
      (fun pre l => l = log ++ pre) log
      (fun pre s a _ hp => ⟨false, a ++ [s], rfl, rfl, by rw [hp, List.append_assoc]⟩)
      (dropOk_all _) (hf d) (by rw [List.append_nil])
    refine ⟨h', ?_, r⟩
    rw [p] at e
    exact e

theorem Lists.bindStep_length (A : Lists) (op : BindOp) (k : Nat) (h : ∀ d, (A d).length ≤ k) (d : Nat) :
    ((A.bindStep op) d).length ≤ k + 1 := by
  cases op with
  | bind s e =>
    show ((A.bind s e) d).length ≤ _
    unfold Lists.bind
    have := List.length_filter_le (fun x => decide (x ≠ s)) (A d)
    have := h d
    split
    · rw [List.length_append, List.length_singleton]; omega
    · omega
  | changed e fails =>
    show ((A.drop e fails) d).length ≤ _
    unfold Lists.drop
    have := List.length_filter_le (fun s => !fails s) (A d)
    have := h d
    split <;> omega
  | gone e =>
    show ((A.drop e _) d).length ≤ _
    unfold Lists.drop
    have := List.length_filter_le (fun s => !(fun _ => true) s) (A d)
    have := h d
    split <;> omega

theorem bindRun_repr (fuel : Nat) : ∀ (ops : List BindOp) (h : Links) (A : Lists) (log : List Nat) (k : Nat),
    h.SRepr A → A.LegalBind ops → (∀ d, (A d).length ≤ k) → k + ops.length + 1 ≤ fuel →
    ∃ h', h.bindRun fuel log ops = .ok (h', log ++ A.toldRun ops) ∧ h'.SRepr (A.bindRun ops)
  | [], h, A, log, _, hr, _, _, _ => ⟨h, by rw [Lists.toldRun, List.append_nil]; rfl, hr⟩
  | op :: ops, h, A, log, k, hr, hl, hk, hf => by
    simp only [List.length_cons] at hf
    obtain ⟨h1, e1, r1⟩ := hr.step fuel log op hl.1 (fun d => by have := hk d; omega)
    obtain ⟨h2, e2, r2⟩ := bindRun_repr fuel ops h1 (A.bindStep op) (log ++ A.told op) (k + 1) r1 hl.2
      (A.bindStep_length op k hk) (by omega)
    refine ⟨h2, ?_, r2⟩
    unfold Links.bindRun
    rw [e1, ok_bind]
    dsimp only
    rw [e2, Lists.toldRun, List.append_assoc]

/-- **C63** (partial: as long as no two neighbours that are not at the begin of the list unbind during the same
notification, see `C63_refuted`).  After any sequence of binding units to data, of notifications that data
has changed, during which some units unbind, and of data going away, nothing has gone wrong with memory; the
list of each data object contains exactly the units bound to it in the order of binding; and each
notification has reached each unit bound at that time once. -/
theorem C63_bound_partial (ops : List BindOp) (hl : Lists.LegalBind (fun _ => []) ops) (fuel : Nat)
    (hf : ops.length + 1 ≤ fuel) :
    ∃ h log, ({} : Links).bindRun fuel [] ops = .ok (h, log) ∧
      log = Lists.toldRun (fun _ => []) ops ∧
      (∀ d, h.Visits d (Lists.bindRun (fun _ => []) ops d)) ∧
      (∀ s d, h.owner s = some d ↔ s ∈ Lists.bindRun (fun _ => []) ops d) ∧
      ∀ d, (Lists.bindRun (fun _ => []) ops d).Nodup := by
  obtain ⟨h, e, r⟩ := bindRun_repr fuel ops {} (fun _ => []) [] 0 .empty hl (fun _ => Nat.le_refl _) (by omega)
  exact ⟨h, _, e, rfl, r.visits, r.owner, r.nodup⟩

/-- Notification of all states, whichever fail. -/
theorem resetLoop_told (d : Nat) (fails : Nat → Bool) : ∀ (R : List Nat) (fuel : Nat) (p prev : Option Nat)
    (h : Links) (log : List Nat), R.Nodup → (∀ x, prev = some x → x ∉ R) → Seg h.next p R none → R.length + 1 ≤ fuel →
    ∃ h', resetLoop (fun log s => .ok (fails s, log ++ [s])) false d fuel p prev h log = .ok (h', log ++ R) ∧
      ∀ s, h'.owner s = if s ∈ R ∧ fails s = true then none else h.owner s
  | [], fuel + 1, p, prev, h, log, _, _, hs, _ => by
    have hs : p = none := hs
    subst hs
    exact ⟨h, by rw [List.append_nil]; rfl, fun s => by rw [if_neg (by simp)]⟩
  | x :: R, fuel + 1, p, prev, h, log, hn, hp, hs, hf => by
    obtain ⟨hx, hn⟩ := List.nodup_cons.1 hn
    simp only [List.length_cons] at hf
    rw [hs.1]
    unfold resetLoop
    rw [ok_bind]
    dsimp only
    have el : log ++ x :: R = log ++ [x] ++ R := by simp
    by_cases hfx : fails x = true
    · rw [if_pos (.inl hfx)]
      have hseg : Seg (h.dataDrop d x prev (h.next x)).next (h.next x) R none := by
        refine hs.2.congr (fun y hy => ?_)
        have hyx : y ≠ x := fun e => hx (e ▸ hy)
        show upd _ x none y = _
        rw [upd_ne _ _ hyx]
        cases prev with
        | none => dsimp only; split <;> rfl
        | some q =>
          have : y ≠ q := fun e => hp q rfl (by rw [← e]; exact List.mem_cons_of_mem _ hy)
          dsimp only
          split <;> (dsimp only; exact upd_ne _ _ this)
      obtain ⟨h', e1, e2⟩ := resetLoop_told d fails R fuel (h.next x) none (h.dataDrop d x prev (h.next x))
        (log ++ [x]) hn (fun _ c => by cases c) hseg (by omega)
      refine ⟨h', by rw [el]; exact e1, fun s => ?_⟩
      have ho : (h.dataDrop d x prev (h.next x)).owner = upd h.owner x none := by
        unfold Links.dataDrop
        cases prev <;> (dsimp only; split <;> rfl)
      rw [e2, ho]
      by_cases hsx : s = x
      · subst hsx
        rw [if_neg (fun c => hx c.1), upd_self, if_pos ⟨List.mem_cons_self, hfx⟩]
      · rw [upd_ne _ _ hsx]
        have : (s ∈ x :: R ∧ fails s = true) ↔ (s ∈ R ∧ fails s = true) := by simp [hsx]
        by_cases hc : s ∈ R ∧ fails s = true
        · rw [if_pos hc, if_pos (this.2 hc)]
        · rw [if_neg hc, if_neg (fun c => hc (this.1 c))]
    · rw [if_neg (by simp [hfx])]
      obtain ⟨h', e1, e2⟩ := resetLoop_told d fails R fuel (h.next x) (some x) h (log ++ [x]) hn
        (fun y e => by cases e; exact hx) hs.2 (by omega)
      refine ⟨h', by rw [el]; exact e1, fun s => ?_⟩
      rw [e2]
      by_cases hsx : s = x
      · subst hsx
        rw [if_neg (fun c => hx c.1), if_neg (fun c => hfx c.2)]
      · have : (s ∈ x :: R ∧ fails s = true) ↔ (s ∈ R ∧ fails s = true) := by simp [hsx]
        by_cases hc : s ∈ R ∧ fails s = true
        · rw [if_pos hc, if_pos (this.2 hc)]
        · rw [if_neg hc, if_neg (fun c => hc (this.1 c))]
  | _, 0, _, _, _, _, _, _, _, hf => by omega

/-- **C63** (notification).  When data changes after calls as in `C63_bound_partial`, each unit bound to it is
notified once, in order, whichever and however many of them unbind; exactly those that unbind are unbound. -/
theorem C63_notify (ops : List BindOp) (hl : Lists.LegalBind (fun _ => []) ops) (d : Nat) (fails : Nat → Bool)
    (fuel : Nat) (hf : ops.length + 2 ≤ fuel) (h : Links) (log : List Nat)
    (hrun : ({} : Links).bindRun fuel [] ops = .ok (h, log)) :
    ∃ h', h.bindStep fuel log (.changed d fails) = .ok (h', log ++ Lists.bindRun (fun _ => []) ops d) ∧
      ∀ s, h'.owner s = if h.owner s = some d ∧ fails s = true then none else h.owner s := by
  obtain ⟨h1, e, r⟩ := bindRun_repr fuel ops {} (fun _ => []) [] 0 .empty hl (fun _ => Nat.le_refl _) (by omega)
  rw [hrun] at e
  have e := Except.ok.inj e
  have e1 : h = h1 := congrArg Prod.fst e
  subst e1
  have hlen : ∀ (ops : List BindOp) (A : Lists) (k : Nat), (∀ d, (A d).length ≤ k) →
      ∀ d, ((A.bindRun ops) d).length ≤ k + ops.length := by
    intro ops
    induction ops with
    | nil => intro A k h d; exact h d
    | cons op ops ih =>
      intro A k h d
      have := ih (A.bindStep op) (k + 1) (A.bindStep_length op k h) d
      simp only [List.length_cons]
      show (((A.bindStep op).bindRun ops) d).length ≤ _
      omega
  have hL := hlen ops (fun _ => []) 0 (fun _ => Nat.le_refl _) d
  obtain ⟨h', e2, e3⟩ := resetLoop_told d fails _ fuel (h.first d) none h log (r.nodup d) (fun _ c => by cases c)
    (r.chain d) (by omega)
  refine ⟨h', e2, fun s => ?_⟩
  rw [e3]
  by_cases hs : h.owner s = some d
  · by_cases hc : fails s = true
    · rw [if_pos ⟨(r.owner s d).1 hs, hc⟩, if_pos ⟨hs, hc⟩]
    · rw [if_neg (fun c => hc c.2), if_neg (fun c => hc c.2)]
  · rw [if_neg (fun c => hs ((r.owner s d).2 c.1)), if_neg (fun c => hs c.1)]

/-- **C63** does not hold: of four units, the second and third unbind when data 0 changes.  Afterwards the list
ends with the third unit, which is not bound to any data, and the fourth, which is bound, is lost.  It is not
notified when the data goes away, and remains bound to data that does not exist any more. -/
theorem C63_refuted :
    let ops : List BindOp := [.bind 1 (some 0), .bind 2 (some 0), .bind 3 (some 0), .bind 4 (some 0),
      .changed 0 (fun s => s == 2 || s == 3)]
    (({} : Links).bindRun 10 [] ops).map (fun r => ((r.1.walk 10 (r.1.first 0)).toOption, r.1.owner 3, r.1.owner 4)) =
      .ok (some [1, 3], none, some 0) ∧
    (({} : Links).bindRun 10 [] (ops ++ [.gone 0])).map (fun r => (r.2, r.1.owner 4)) =
      .ok ([1, 2, 3, 4, 1, 3], some 0) := by
  refine ⟨by decide +kernel, by decide +kernel⟩

/-- The hypotheses are met: of five units the first two and the fourth unbind, then the second binds again. -/
example : Lists.LegalBind (fun _ => []) [.bind 1 (some 0), .bind 2 (some 0), .bind 3 (some 0), .bind 4 (some 0),
    .bind 5 (some 0), .changed 0 (fun s => s == 1 || s == 2 || s == 4), .bind 2 (some 0), .gone 0] := by
  refine ⟨trivial, trivial, trivial, trivial, trivial, ?_, trivial, trivial, trivial⟩
  unfold BindOp.Legal
  dsimp only
  rw [show List.dropWhile _ _ = [3, 4, 5] from by decide +kernel]
  exact ⟨by decide, by decide, trivial⟩
example : Lists.toldRun (fun _ => []) [.bind 1 (some 0), .bind 2 (some 0), .bind 3 (some 0), .bind 4 (some 0),
    .bind 5 (some 0), .changed 0 (fun s => s == 1 || s == 2 || s == 4), .bind 2 (some 0), .gone 0] =
    [1, 2, 3, 4, 5, 3, 5, 2] := by decide +kernel

end BK
