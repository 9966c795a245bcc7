import Verif.Spec.Score
import Verif.Lemmas.Loose
/-!
The sound of a performance follows from its calls and their times.
-/
namespace BK

variable {N : Nat}

/-! Steps that sound the same. -/

/-- The same steps on each channel, in any order. -/
def Alike (P P' : List Pulse) : Prop := ∀ c, (onChan c P).Perm (onChan c P')

theorem Alike.refl (P : List Pulse) : Alike P P := fun _ => List.Perm.refl _

theorem Alike.symm {P Q : List Pulse} (h : Alike P Q) : Alike Q P := fun c => (h c).symm

theorem Alike.trans {P Q R : List Pulse} (h : Alike P Q) (h' : Alike Q R) : Alike P R := fun c => (h c).trans (h' c)

theorem Alike.append {P P' Q Q' : List Pulse} (h : Alike P P') (h' : Alike Q Q') : Alike (P ++ Q) (P' ++ Q') := by
  intro c
  rw [onChan_append, onChan_append]
  exact (h c).append (h' c)

theorem Alike.later {P Q : List Pulse} (h : Alike P Q) (d : Int) : Alike (P.map (Pulse.later d)) (Q.map (Pulse.later d)) := by
  intro c
  rw [onChan_later, onChan_later]
  exact (h c).map _

theorem Alike.of_perm {P Q : List Pulse} (h : P.Perm Q) : Alike P Q := fun _ => h.filter _

theorem perm_sum {l l' : List Int} (h : l.Perm l') : l.sum = l'.sum := by
  induction h with
  | nil => rfl
  | cons x _ ih => rw [List.sum_cons, List.sum_cons, ih]
  | swap x y l => simp only [List.sum_cons]; omega
  | trans _ _ h1 h2 => exact h1.trans h2

theorem stepsAt_alike {P Q : List Pulse} (h : Alike P Q) (c n : Nat) : stepsAt P c n = stepsAt Q c n :=
  perm_sum ((h c).map _)

theorem soundOf_alike {P Q : List Pulse} (h : Alike P Q) (N T : Nat) : soundOf N T P = soundOf N T Q := by
  unfold soundOf
  simp only [stepsAt_alike h]

theorem flatMap_alike {ps qs : Nat → List Pulse} : ∀ (l : List Nat), (∀ y ∈ l, Alike (ps y) (qs y)) → Alike (l.flatMap ps) (l.flatMap qs)
  | [], _ => Alike.refl _
  | y :: l, h => by
    rw [List.flatMap_cons, List.flatMap_cons]
    exact (h y (List.mem_cons_self ..)).append (flatMap_alike l fun z hz => h z (List.mem_cons_of_mem _ hz))

theorem flatMap_append_alike {ps qs : Nat → List Pulse} : ∀ (l : List Nat), Alike (l.flatMap fun y => ps y ++ qs y) (l.flatMap ps ++ l.flatMap qs)
  | [] => Alike.refl _
  | y :: l => by
    rw [List.flatMap_cons, List.flatMap_cons, List.flatMap_cons]
    refine ((Alike.refl (ps y ++ qs y)).append (flatMap_append_alike l)).trans (Alike.of_perm ?_)
    rw [List.append_assoc, List.append_assoc]
    refine List.Perm.append_left _ ?_
    rw [← List.append_assoc, ← List.append_assoc]
    exact List.Perm.append_right _ List.perm_append_comm

theorem TWorld.Lists.perm {s : TWorld} {l l' : List Nat} (h : s.Lists l) (h' : s.Lists l') : l.Perm l' :=
  (List.perm_ext_iff_of_nodup h.nodup h'.nodup).2 fun y => (h.mem y).trans (h'.mem y).symm

theorem Pulse.later_later (a b : Int) (q : Pulse) : (q.later a).later b = q.later (b + a) := by
  unfold Pulse.later
  dsimp only
  congr 1
  omega

/-! Time passes. -/

theorem TWorld.Waits.det {s s1 s2 : TWorld} {d : Int} {ps qs : Nat → List Pulse} (h : s.Waits d s1 ps) (h' : s.Waits d s2 qs) :
    s1 = s2 ∧ ∀ y t, s.tracks y = some t → t.ctx ≠ none → ps y = qs y := by
  refine ⟨TWorld.same (h.iw.trans h'.iw.symm) (funext fun y => ?_), ?_⟩
  · by_cases hy : ∀ t, s.tracks y = some t → t.ctx = none
    · rw [h.off y hy, h'.off y hy]
    · simp only [not_forall] at hy
      obtain ⟨t, ht, hc⟩ := hy
      obtain ⟨a, a1, a2⟩ := h.on y t ht hc
      obtain ⟨b, b1, b2⟩ := h'.on y t ht hc
      rw [a1] at b1
      have := congrArg Prod.fst (Except.ok.inj b1)
      dsimp only at this
      rw [a2, b2, this]
  · intro y t ht hc
    obtain ⟨a, a1, a2⟩ := h.on y t ht hc
    obtain ⟨b, b1, b2⟩ := h'.on y t ht hc
    rw [a1] at b1
    exact congrArg Prod.snd (Except.ok.inj b1)

theorem TWorld.Waits.alike {s s1 s2 : TWorld} {d : Int} {ps qs : Nat → List Pulse} {l l' : List Nat} (h : s.Waits d s1 ps)
    (h' : s.Waits d s2 qs) (hl : s.Lists l) (hl' : s.Lists l') : Alike (l.flatMap ps) (l'.flatMap qs) := by
  refine (flatMap_alike (qs := qs) l fun y hy => ?_).trans (Alike.of_perm ((hl.perm hl').flatMap_right _))
  obtain ⟨t, ht, hc⟩ := (hl.mem y).1 hy
  rw [(h.det h').2 y t ht hc]
  exact Alike.refl _

/-- A track later. -/
def Track.sooner (d : Int) (t : Track) : Track := { t with unit := { t.unit with time := t.unit.time - d } }

theorem Track.Inv.sooner {t : Track} (h : t.Inv N False) (d : Int) : (t.sooner d).Inv N False := { h with }

theorem Track.run_ok {t u : Track} {y : Nat} {w : IWorld} {e : Int} (hu : t.updateUnit y w = .ok u) {c : Int × Int} (hc : u.ctx = some c)
    (hn : c.2 = N) {r : Int × UCore × List Pulse} (hr : u.unit.toUCore.render u.unit.time e N = .ok r) :
    t.run y w e = .ok ({ u with unit := { toUCore := r.2.1, time := r.1 } }, r.2.2) := by
  unfold Track.run
  rw [hu, ok_bind, hc]
  dsimp only
  rw [hn, Int.toNat_natCast, hr]
  rfl

/-- A track that plays on, in one or two passes. -/
theorem Track.Inv.apart {n : Nat} {t : Track} (h : t.Inv N False) (hc : t.ctx ≠ none) (h0 : 0 ≤ t.unit.time) (h1 : t.unit.time ≤ 2147483647)
    {y : Nat} {w : IWorld} (hw : w.Good n) {a b : Int} (ha : 0 ≤ a) (hb : 0 ≤ b) (hab : a + b ≤ 1073741824) :
    ∃ t1 p1 t2 p2 t3 p3, t.run y w a = .ok (t1, p1) ∧ (t1.sooner a).run y w b = .ok (t2, p2) ∧ t.run y w (a + b) = .ok (t3, p3) ∧
      t3.sooner (a + b) = t2.sooner b ∧ Alike p3 (p1 ++ p2.map (Pulse.later a)) ∧
      (t1.sooner a).Inv N False ∧ t1.ctx = t.ctx ∧ a ≤ t1.unit.time ∧ t1.unit.time ≤ a + 2147483647 ∧ ∀ q ∈ p1, 0 ≤ q.time := by
  obtain ⟨u, hu, hi⟩ := (h.updateUnit (x := y) hw).get trivial
  have hcl : u.Clean := Track.updateUnit_clean hu
  have hx : u.ctx = t.ctx := Track.updateUnit_ctx hu
  have ht := Track.updateUnit_time hu
  obtain ⟨c, hcc⟩ : ∃ c, t.ctx = some c := by
    cases e : t.ctx with
    | none => exact absurd e hc
    | some c => exact ⟨c, rfl⟩
  have hn := (h.ctx c hcc).2.2
  have hx' := hx.trans hcc
  have huse : u.unit.toUCore.Usable N := ⟨hi.unit.inv, hi.unit.sinv⟩
  obtain ⟨τ1, c1, p1, a1, a2, a3, a4, a5, a6⟩ := huse.render (t0 := u.unit.time) (e := a) (by omega) (by omega) ha (by omega)
  obtain ⟨τ2, c2, p2, b1, b2, b3, b4, b5, b6⟩ := a2.render (t0 := τ1) (e := a + b) (by omega) (by omega) (by omega) (by omega)
  obtain ⟨p3, d1, d2⟩ := huse.split (by omega) (by omega) ha (by omega : a ≤ a + b) (by omega) a1 b1
  have hfine : c1.Fine N False := by
    obtain ⟨r, e1, e2⟩ := (UCore.render_fine hi.unit u.unit.time ha (by omega)).get trivial
    rw [a1] at e1
    cases e1
    exact e2
  have hb6 := b6 a ha (by omega) (by omega)
  rw [show a + b - a = b by omega] at hb6
  refine ⟨{ u with unit := { toUCore := c1, time := τ1 } }, p1, { u with unit := { toUCore := c2, time := τ2 - a } }, p2.map (Pulse.earlier a),
    { u with unit := { toUCore := c2, time := τ2 } }, p3, ?_, ?_, ?_, ?_, ?_, { hi with unit := hfine }, hx, a3, ?_, ?_⟩
  · exact Track.run_ok hu hx' hn a1
  · have hcl' : (Track.sooner a { u with unit := { toUCore := c1, time := τ1 } }).Clean := hcl
    exact Track.run_ok (hcl'.updateUnit y w) hx' hn hb6
  · exact Track.run_ok hu hx' hn d1
  · unfold Track.sooner
    dsimp only
    rw [show τ2 - (a + b) = τ2 - a - b by omega]
  · have : (p2.map (Pulse.earlier a)).map (Pulse.later a) = p2 := by
      rw [List.map_map]
      refine (List.map_congr_left fun q _ => ?_).trans (List.map_id _)
      show Pulse.later a (Pulse.earlier a q) = q
      unfold Pulse.later Pulse.earlier
      dsimp only
      rw [show q.time - a + a = q.time by omega]
    rw [this]
    intro i
    rw [onChan_append, d2 i]
  · dsimp only
    omega
  · intro q hq
    have := a5 q hq
    omega

/-! Times of units. -/

theorem Track.exec_time {x : Nat} {w : IWorld} {t : Track} {op : TOp} (hq : op.Quiet) {r : IWorld × Track} (h : t.exec x w op = .ok r) :
    r.2.unit.time = t.unit.time := by
  have e : t.exec x w op = (t.exec x w op).map (moved2 t.unit.time) := Track.moved_exec (τ := t.unit.time) (t := t) hq
  rw [h] at e
  have := congrArg (fun r : IWorld × Track => r.2.unit.time) (Except.ok.inj e)
  exact this

theorem Track.told_time {x : Nat} {w : IWorld} {t t' : Track} {e : InstrEvent} (h : t.told x w e = .ok t') :
    t'.unit.time = t.unit.time := by
  have k : t.told x w e = (t.told x w e).map (Track.moved t.unit.time) := Track.moved_told (τ := t.unit.time) (t := t)
  rw [h] at k
  have := congrArg (fun r : Track => r.unit.time) (Except.ok.inj k)
  exact this

theorem Track.reset_time {x : Nat} {w : IWorld} {t : Track} {r : IWorld × Track} (h : t.reset x w = .ok r) : r.2.unit.time = 0 := by
  unfold Track.reset at h
  obtain ⟨u, h1, h⟩ := bind_ok_iff.1 h
  obtain ⟨q, h2, h⟩ := bind_ok_iff.1 h
  have hu : u.time = 0 := by
    unfold BUnit.reset at h1
    obtain ⟨c, -, h1⟩ := bind_ok_iff.1 h1
    cases h1; rfl
  have k2 := Track.moved_setAttr (x := x) (w := w) (τ := u.time) (t := { t with unit := u, dataId := if u.data = none then none else t.dataId })
    (a := .dutyCycle) (v := 4)
  have e2 : Track.moved u.time { t with unit := u, dataId := if u.data = none then none else t.dataId } =
    { t with unit := u, dataId := if u.data = none then none else t.dataId } := rfl
  rw [e2, h2] at k2
  have t2 : q.2.2.unit.time = u.time := congrArg (fun r : Ret × IWorld × Track => r.2.2.unit.time) (Except.ok.inj k2)
  have k3 : q.2.2.clear x q.2.1 = (q.2.2.clear x q.2.1).map (moved2 q.2.2.unit.time) := Track.moved_clear (τ := q.2.2.unit.time) (t := q.2.2)
  rw [h] at k3
  have t3 := congrArg (fun r : IWorld × Track => r.2.unit.time) (Except.ok.inj k3)
  have t3' : r.2.unit.time = q.2.2.unit.time := t3
  rw [t3', t2, hu]

theorem Track.init_time {x : Nat} {w : IWorld} {wf : Int} {r : IWorld × Track} (h : Track.init x w wf = .ok r) : r.2.unit.time = 0 := by
  unfold Track.init at h
  obtain ⟨u, -, h⟩ := bind_ok_iff.1 h
  obtain ⟨q, -, h⟩ := bind_ok_iff.1 h
  exact Track.reset_time h

/-- Times of units are not large. -/
def TWorld.Timed (s : TWorld) : Prop := ∀ y t, s.tracks y = some t → 0 ≤ t.unit.time ∧ t.unit.time ≤ 2147483647

theorem TWorld.Timed.put {s : TWorld} (h : s.Timed) {x : Nat} {t : Track} {iw : IWorld} (ht : 0 ≤ t.unit.time ∧ t.unit.time ≤ 2147483647) :
    TWorld.Timed { iw := iw, tracks := upd s.tracks x (some t) } := by
  intro y u hu
  dsimp only at hu
  by_cases e : y = x
  · subst e
    rw [upd_self] at hu
    cases hu
    exact ht
  · rw [upd_ne _ _ e] at hu
    exact h y u hu

theorem TWorld.tell_timed {iw iw' : IWorld} : ∀ (es : List (Nat × InstrEvent)) {ts ts' : Nat → Option Track},
    TWorld.Timed { iw := iw', tracks := ts } → es.foldlM (TWorld.tell iw) ts = .ok ts' → TWorld.Timed { iw := iw', tracks := ts' }
  | [], ts, ts', h, e => by cases e; exact h
  | ev :: es, ts, ts', h, e => by
    rw [List.foldlM_cons] at e
    obtain ⟨u, h1, e⟩ := bind_ok_iff.1 e
    refine TWorld.tell_timed es ?_ e
    unfold TWorld.tell at h1
    split at h1
    · cases h1; exact h
    · rename_i t ht
      obtain ⟨t', h2, h1⟩ := bind_ok_iff.1 h1
      cases h1
      exact h.put (by rw [Track.told_time h2]; exact h _ _ ht)

theorem TWorld.exec_timed {fuel : Nat} {s s' : TWorld} {op : WOp} (hq : op.Here) (h : s.Timed)
    (e : s.exec fuel op = .ok s') : s'.Timed := by
  have hear : ∀ (w : IWorld), s.hear w = .ok s' → s'.Timed := by
    intro w e
    unfold TWorld.hear at e
    obtain ⟨ts, h1, e⟩ := bind_ok_iff.1 e
    cases e
    have := TWorld.tell_timed (iw' := s.iw) _ h h1
    exact this
  cases op <;> unfold TWorld.exec at e <;> dsimp only at e
  · split at e
    · cases e; exact h
    · obtain ⟨r, h1, e⟩ := bind_ok_iff.1 e
      cases e
      exact h.put (by rw [Track.init_time h1]; omega)
  · rename_i x o
    split at e
    · cases e; exact h
    · rename_i t ht
      obtain ⟨r, hr, e⟩ := bind_ok_iff.1 e
      cases e
      by_cases hs : o.Quiet
      · exact h.put (by rw [Track.exec_time hs hr]; exact h _ _ ht)
      · cases o with
        | attach rate chans delta =>
          have hd : delta = 0 := hq
          unfold Track.exec at hr
          dsimp only at hr
          obtain ⟨q, h1, hr⟩ := bind_ok_iff.1 hr
          cases hr
          refine h.put ?_
          dsimp only
          unfold Track.attach at h1
          split at h1
          · cases h1; exact h _ _ ht
          · obtain ⟨u, h2, h1⟩ := bind_ok_iff.1 h1
            have := Track.updateUnit_time h2
            cases h1
            dsimp only at this ⊢
            omega
        | detach =>
          unfold Track.exec at hr
          dsimp only at hr
          cases hr
          refine h.put ?_
          dsimp only
          unfold Track.detach
          dsimp only
          split
          · exact h _ _ ht
          · dsimp only; omega
        | _ => exact absurd hq hs
  · obtain ⟨r, -, e⟩ := bind_ok_iff.1 e
    exact hear _ e
  · obtain ⟨r, -, e⟩ := bind_ok_iff.1 e
    exact hear _ e
  · obtain ⟨r, -, e⟩ := bind_ok_iff.1 e
    exact hear _ e

theorem TWorld.run_timed {fuel : Nat} : ∀ (ops : List WOp) {s s' : TWorld}, (∀ op ∈ ops, op.Here) →
    s.Timed → s.run fuel ops = .ok s' → s'.Timed
  | [], s, s', _, h, e => by cases e; exact h
  | op :: ops, s, s', hq, h, e => by
    unfold TWorld.run at e
    obtain ⟨s1, h1, e⟩ := bind_ok_iff.1 e
    exact TWorld.run_timed ops (fun o ho => hq o (List.mem_cons_of_mem _ ho))
      (TWorld.exec_timed (hq op (List.mem_cons_self ..)) h h1) e

end BK
