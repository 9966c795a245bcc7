import Verif.Spec.Sound
import Verif.Lemmas.Refine2
/-!
Calls with the steps which they make.
-/
namespace BK

theorem TWorld.trace_append {f : Nat} : ∀ (as bs : List WOp) {s s1 s2 : TWorld} {p1 p2 : List Pulse}, s.trace f as = .ok (s1, p1) →
    s1.trace f bs = .ok (s2, p2) → s.trace f (as ++ bs) = .ok (s2, p1 ++ p2)
  | [], bs, s, s1, s2, p1, p2, h, h' => by cases h; exact h'
  | a :: as, bs, s, s1, s2, p1, p2, h, h' => by
    rw [List.cons_append]
    unfold TWorld.trace at h ⊢
    obtain ⟨u, h1, h⟩ := bind_ok_iff.1 h
    obtain ⟨r, h2, h⟩ := bind_ok_iff.1 h
    cases h
    rw [h1, ok_bind, TWorld.trace_append as bs h2 h', ok_bind, List.append_assoc]
    rfl

theorem TWorld.trace_more {f F : Nat} (hf : f ≤ F) : ∀ (ops : List WOp) {s : TWorld} {r : TWorld × List Pulse}, s.trace f ops = .ok r →
    s.trace F ops = .ok r
  | [], s, r, h => h
  | op :: ops, s, r, h => by
    unfold TWorld.trace at h ⊢
    obtain ⟨u, h1, h⟩ := bind_ok_iff.1 h
    obtain ⟨q, h2, h⟩ := bind_ok_iff.1 h
    rw [TWorld.exec_more hf h1, ok_bind, TWorld.trace_more hf ops h2, ok_bind]
    exact h

theorem pulsesOf_quiet {s : TWorld} {op : WOp} (h : op.Quiet) : s.pulsesOf op = [] := by
  cases op with
  | track y o => cases o <;> first | rfl | exact h.elim
  | _ => rfl

theorem TWorld.trace_quiet {f : Nat} : ∀ (ops : List WOp) {s s' : TWorld}, (∀ op ∈ ops, ∀ w : TWorld, w.pulsesOf op = []) →
    s.run f ops = .ok s' → s.trace f ops = .ok (s', [])
  | [], s, s', _, h => by cases h; rfl
  | op :: ops, s, s', hq, h => by
    unfold TWorld.run at h
    unfold TWorld.trace
    obtain ⟨u, h1, h⟩ := bind_ok_iff.1 h
    rw [h1, ok_bind, TWorld.trace_quiet ops (fun o ho => hq o (List.mem_cons_of_mem _ ho)) h,
      ok_bind, hq op (List.mem_cons_self ..)]
    rfl

theorem TWorld.play_append {f : Nat} : ∀ (as : List (List WOp × Int)) (b : List WOp) (d : Int) {s s1 s2 : TWorld} {start : Int}
    {p1 p2 : List Pulse}, s.play f start as = .ok (s1, p1) → s1.trace f b = .ok (s2, p2) →
    s.play f start (as ++ [(b, d)]) = .ok (s2.pass d, p1 ++ p2.map (Pulse.later (start + (as.map (·.2)).sum)))
  | [], b, d, s, s1, s2, start, p1, p2, h, h' => by
    cases h
    show (do let r ← s.trace f b; _ : C _) = _
    rw [h', ok_bind]
    simp [TWorld.play, pure_eq_ok, ok_bind]
  | (a, c) :: as, b, d, s, s1, s2, start, p1, p2, h, h' => by
    rw [List.cons_append]
    unfold TWorld.play at h ⊢
    obtain ⟨r, h1, h⟩ := bind_ok_iff.1 h
    obtain ⟨q, h2, h⟩ := bind_ok_iff.1 h
    cases h
    rw [h1, ok_bind, TWorld.play_append as b d h2 h', ok_bind, List.append_assoc, List.map_cons, List.sum_cons, Int.add_assoc]
    rfl

theorem TWorld.rendered_append {f : Nat} : ∀ (as : List (List WOp × Int)) (b : List WOp) (d : Int) {s s1 s2 : TWorld} {start : Int}
    {p1 p2 : List Pulse}, s.Rendered f as → s.play f start as = .ok (s1, p1) → s1.trace f b = .ok (s2, p2) → 0 ≤ d → s2.Upto d →
    s.Rendered f (as ++ [(b, d)])
  | [], b, d, s, s1, s2, start, p1, p2, _, h, h', hd, hu => by
    cases h
    intro r hr
    rw [h'] at hr
    cases hr
    exact ⟨hd, hu, trivial⟩
  | (a, c) :: as, b, d, s, s1, s2, start, p1, p2, hR, h, h', hd, hu => by
    intro r hr
    obtain ⟨k0, k1, k2⟩ := hR r hr
    refine ⟨k0, k1, ?_⟩
    unfold TWorld.play at h
    rw [hr, ok_bind] at h
    obtain ⟨q, h2, h⟩ := bind_ok_iff.1 h
    cases h
    exact TWorld.rendered_append as b d k2 h2 h' hd hu

/-- A state that is reached by the calls in a log while `T` frames pass, with the steps `P`. -/
def Script (T : Nat) (P : List Pulse) (s : TWorld) (log : List WOp) : Prop :=
  ∃ (blocks : List (List WOp × Int)) (last : List WOp) (s0 : TWorld) (P0 P1 : List Pulse),
    (blocks.flatMap (·.1) ++ last).filter WOp.isCall = log ∧ (blocks.map (·.2)).sum = T * U20 ∧
    P = P0 ++ P1.map (Pulse.later (T * U20)) ∧
    ∀ fuel, (blocks.flatMap (·.1) ++ last).length ≤ fuel →
      ({} : TWorld).play fuel 0 blocks = .ok (s0, P0) ∧ s0.trace fuel last = .ok (s, P1) ∧ ({} : TWorld).Rendered fuel blocks

theorem Script.more {T f : Nat} {P ps : List Pulse} {s s' : TWorld} {log ops : List WOp} (h : Script T P s log)
    (hr : s.trace f ops = .ok (s', ps)) (hf : f ≤ log.length + ops.length) :
    Script T (P ++ ps.map (Pulse.later (T * U20))) s' (log ++ ops.filter WOp.isCall) := by
  obtain ⟨blocks, last, s0, P0, P1, h1, h2, h3, h4⟩ := h
  refine ⟨blocks, last ++ ops, s0, P0, P1 ++ ps, ?_, h2, ?_, ?_⟩
  · rw [← List.append_assoc, List.filter_append, h1]
  · rw [h3, List.map_append, List.append_assoc]
  · intro F hF
    have hlen : log.length ≤ (blocks.flatMap (·.1) ++ last).length := by rw [← h1]; exact List.length_filter_le ..
    rw [← List.append_assoc, List.length_append] at hF
    obtain ⟨k1, k2, k3⟩ := h4 F (by omega)
    exact ⟨k1, TWorld.trace_append last ops k2 (TWorld.trace_more (by omega) ops hr), k3⟩

theorem Script.calls {T f : Nat} {P : List Pulse} {s s' : TWorld} {log ops : List WOp} (h : Script T P s log)
    (hr : s.run f ops = .ok s') (hq : ∀ op ∈ ops, ∀ s, TWorld.pulsesOf s op = []) (hf : f ≤ log.length + ops.length) :
    Script T P s' (log ++ ops.filter WOp.isCall) := by
  have := h.more (TWorld.trace_quiet ops hq hr) hf
  rw [List.map_nil, List.append_nil] at this
  exact this

theorem Script.pass {T k : Nat} {P : List Pulse} {s : TWorld} {log : List WOp} (h : Script T P s log)
    (hu : s.Upto (k * U20)) : Script (T + k) P (s.pass (k * U20)) log := by
  obtain ⟨blocks, last, s0, P0, P1, h1, h2, h3, h4⟩ := h
  refine ⟨blocks ++ [(last, k * U20)], [], s.pass (k * U20), P, [], ?_, ?_, by simp, ?_⟩
  · simpa using h1
  · simp only [List.map_append, List.sum_append, h2, List.map_cons, List.map_nil, List.sum_cons, List.sum_nil]
    push_cast; omega
  · intro F hF
    obtain ⟨k1, k2, k3⟩ := h4 F (by simpa using hF)
    refine ⟨?_, rfl, TWorld.rendered_append blocks last _ k3 k1 k2 (by omega) hu⟩
    rw [TWorld.play_append blocks last _ k1 k2, h2, h3, Int.zero_add]

end BK
